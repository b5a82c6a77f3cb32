import Verif.Model.DiffMain
import Verif.Proofs.Listing
import Verif.Proofs.Respects
import Verif.Props.ArgParse
import Verif.Props.DistDiff
/-
C140, C141: classdiff, jardiff and distdiff from the command line to the exit status and what is printed.
-/
namespace Javatools

/-! ## What a command line says -/

/-- The options without arguments that set attributes, of all three tools. -/
def diffFlags : List (String × List String) := flagSets ++ [
  ("--ignore-jar-signature", ["ignore_jar_signature"]),
  ("--ignore-manifest", ["ignore_manifest"]),
  ("--ignore-manifest-subsections", ["ignore_manifest_subsections"]),
  ("--ignore-trailing-whitespace", ["ignore_trailing_whitespace"])]

/-- The items of a list given to `--ignore`, as names of attributes. -/
def ignoreItems (v : Str) : List Str := (((splitChar ',' v).map strip).filter fun i => !i.isEmpty).map ignoreAttr

/-- `--ignore` is given with a list that has an item for this attribute. -/
def NamesAttr (g : OptSpec × List Str) (k : Str) : Prop :=
  ∃ v, g = (spec .value ["--ignore"], [v]) ∧ k ∈ ignoreItems v

/-- An option that is given with these arguments sets this attribute. -/
inductive SetsFlag : OptSpec × List Str → Str → Prop where
  | ignore {g k} : NamesAttr g k → SetsFlag g k
  | flag {s ks} {k : String} : (s, ks) ∈ diffFlags → k ∈ ks → SetsFlag (spec .flag [s], []) k.toList

/-- The option is given. -/
def Has (given : List (OptSpec × List Str)) (o : OptSpec) : Prop := ∃ g ∈ given, g.1 = o

/-- The arguments that are given to an option, in order. -/
def valuesOf (given : List (OptSpec × List Str)) (o : OptSpec) : List Str :=
  (given.filter fun g => decide (g.1 = o)).flatMap Prod.snd

/-- What a command line asks for. -/
structure DiffArgs where
  opts : DiffOpts
  shows : Change.ShowOpts
  quiet : Bool
  json : Bool
  shallow : Bool
  /-- the file that is written; `none` is standard output -/
  dest : Option Str

/-- What the options mean. The last `-o` counts, and an empty name is none. -/
structure DiffMeans (given : List (OptSpec × List Str)) (A : DiffArgs) : Prop where
  flags : ∀ name : String, A.opts.attr name = true ↔ ∃ g ∈ given, SetsFlag g name.toList
  keys : A.opts.manifestKeys = valuesOf given (spec .value ["--ignore-manifest-key"])
  entries : A.opts.jarEntries = valuesOf given (spec .value ["--ignore-jar-entry"])
  files : A.opts.filenames = valuesOf given (spec .value ["--ignore-filenames"])
  unchanged : A.shows.showUnchanged = true ↔
    Has given (spec .flag ["--show-unchanged"]) ∨ Has given (spec .flag ["-v", "--verbose"])
  ignored : A.shows.showIgnored = true ↔
    Has given (spec .flag ["--show-ignored"]) ∨ Has given (spec .flag ["-v", "--verbose"])
  quiet : A.quiet = true ↔ Has given (spec .flag ["-q", "--quiet"])
  json : A.json = true ↔ Has given (spec .flag ["-j", "--json"])
  shallow : A.shallow = true ↔ Has given (spec .flag ["--shallow"])
  dest : ∀ name, A.dest = some name ↔
    name ≠ [] ∧ (valuesOf given (spec .value ["-o", "--output"])).getLast? = some name

/-- How a run ends that has compared: with the exit status of the comparison; a run that is not quiet writes the
text report, or with `-j` the JSON document, provided that the file can be opened. -/
structure RunIs {O : Type} (W : DiffWorld) (A : DiffArgs) (o : O) (c : Change O) (run : DiffRun) : Prop where
  quiet : A.quiet = true → run = ⟨none, .ok (c.exitStatus o)⟩
  refused : A.quiet = false → ∀ name e, A.dest = some name → W.cannotOpen name = some e → run = ⟨none, .error e⟩
  text : A.quiet = false → A.json = false → (∀ name, A.dest = some name → W.cannotOpen name = none) →
    run = ⟨some (A.dest, .text (c.textReport o A.shows)), .ok (c.exitStatus o)⟩
  json : A.quiet = false → A.json = true → (∀ name, A.dest = some name → W.cannotOpen name = none) →
    run = ⟨some (A.dest, .json (c.toJson o A.shows)), .ok (c.exitStatus o)⟩

/-- A command line with two files and no reports. -/
structure Compares (isInt : Str → Bool) (t : DiffTool) (ps : List ArgPiece) (a b : Str) : Prop where
  good : ∀ p ∈ ps, p.Good isInt t.tool.opts
  run : OneRun .two ps
  files : piecesFiles ps = [a, b]
  noReport : ¬ Has (piecesGiven ps) (spec .value ["--report"])

/-! ## The namespace -/

theorem Spells.arity {opts : List OptSpec} {g : List (OptSpec × List Str)} {ws : List Str} (h : Spells opts g ws) :
    ∀ a ∈ g, (a.1.takes = true ∧ ∃ v, a.2 = [v]) ∨ (a.1.takes = false ∧ a.2 = []) := by
  intro a ha
  cases h with
  | flag h ht =>
    simp only [List.mem_cons, List.not_mem_nil, or_false] at ha
    rw [ha]; exact .inr ⟨ht, rfl⟩
  | abbrevFlag h ht =>
    simp only [List.mem_cons, List.not_mem_nil, or_false] at ha
    rw [ha]; exact .inr ⟨ht, rfl⟩
  | value h ht | equals h ht =>
    simp only [List.mem_cons, List.not_mem_nil, or_false] at ha
    rw [ha]; exact .inl ⟨ht, _, rfl⟩
  | abbrevValue h ht | abbrevEquals h ht =>
    simp only [List.mem_cons, List.not_mem_nil, or_false] at ha
    rw [ha]; exact .inl ⟨ht, _, rfl⟩
  | cluster _ h =>
    obtain ⟨x, hx, rfl⟩ := List.mem_map.1 ha
    exact .inr ⟨(h x hx).2, rfl⟩
  | clusterValue _ h ho ht =>
    rcases List.mem_append.1 ha with ha | ha
    · obtain ⟨x, hx, rfl⟩ := List.mem_map.1 ha
      exact .inr ⟨(h x hx).2, rfl⟩
    · simp only [List.mem_cons, List.not_mem_nil, or_false] at ha
      rw [ha]; exact .inl ⟨ht, _, rfl⟩
  | clusterAttached h ho ht =>
    rcases List.mem_append.1 ha with ha | ha
    · obtain ⟨x, hx, rfl⟩ := List.mem_map.1 ha
      exact .inr ⟨(h x hx).2, rfl⟩
    · simp only [List.mem_cons, List.not_mem_nil, or_false] at ha
      rw [ha]; exact .inl ⟨ht, _, rfl⟩

/-- An option of one of the tools, with an argument if it wants one. -/
structure Fits (g : OptSpec × List Str) : Prop where
  mem : g.1 ∈ Tool.distdiff.opts
  arity : (g.1.takes = true ∧ ∃ v, g.2 = [v]) ∨ (g.1.takes = false ∧ g.2 = [])

theorem tool_sub (t : DiffTool) : ∀ o ∈ t.tool.opts, o ∈ Tool.distdiff.opts := by
  cases t <;> decide +kernel

theorem good_fits {isInt : Str → Bool} {t : DiffTool} {ps : List ArgPiece} (h : ∀ p ∈ ps, p.Good isInt t.tool.opts) :
    ∀ g ∈ piecesGiven ps, Fits g := by
  intro g hg
  refine ⟨tool_sub t _ (good_mem h g hg), ?_⟩
  obtain ⟨p, hp, hgp⟩ := List.mem_flatMap.1 hg
  have := h p hp
  cases p with
  | options gs ws => exact this.1.arity g hgp
  | file f => simp [ArgPiece.given] at hgp

theorem diffFlag_optArg {o : OptSpec} (ho : o ∈ Tool.distdiff.opts) :
    (givenOptArg (o, [])).map setsAttrs =
      (diffFlags.find? fun x => decide (o = spec .flag [x.1])).map fun x => x.2.map String.toList := by
  have : ∀ o ∈ Tool.distdiff.opts, (givenOptArg (o, [])).map setsAttrs =
      (diffFlags.find? fun x => decide (o = spec .flag [x.1])).map fun x => x.2.map String.toList := by
    decide +kernel
  exact this o ho

theorem diffFlag_named {o : OptSpec} (ho : o ∈ Tool.distdiff.opts) :
    ∀ a, givenOptArg (o, []) = some a → a.named = [] := by
  have : ∀ o ∈ Tool.distdiff.opts, (givenOptArg (o, [])).map OptArg.named = (givenOptArg (o, [])).map fun _ => [] := by
    decide +kernel
  intro a ha
  have := this o ho
  rw [ha] at this
  exact Option.some.inj this

theorem diffFlag_find {x : String × List String} (hx : x ∈ diffFlags) :
    diffFlags.find? (fun y => decide (spec .flag [x.1] = spec .flag [y.1])) = some x := by
  have : ∀ x ∈ diffFlags, diffFlags.find? (fun y => decide (spec .flag [x.1] = spec .flag [y.1])) = some x := by
    decide +kernel
  exact this x hx

theorem diffIgnore_optArg {o : OptSpec} (ho : o ∈ Tool.distdiff.opts) :
    o.strings = ["--ignore".toList] ↔ o = spec .value ["--ignore"] := by
  have : ∀ o ∈ Tool.distdiff.opts, o.strings = ["--ignore".toList] ↔ o = spec .value ["--ignore"] := by
    decide +kernel
  exact this o ho

/-- What an option means to the namespace: attributes, or nothing of the kind. -/
theorem optArg_spec {g : OptSpec × List Str} (h : Fits g) :
    (∀ k, (∃ a, givenOptArg g = some a ∧ k ∈ setsAttrs a) ↔ SetsFlag g k) ∧
    (∀ k, (∃ a, givenOptArg g = some a ∧ k ∈ a.named) ↔ NamesAttr g k) := by
  obtain ⟨o, args⟩ := g
  have ho := h.mem
  rcases h.arity with ⟨ht, v, hv⟩ | ⟨ht, hv⟩
  · simp only at hv ht ho
    subst hv
    have he : givenOptArg (o, [v]) = if o.strings = ["--ignore".toList] then some (.ignore v) else none := rfl
    have hn : ∀ k, (∃ a, givenOptArg (o, [v]) = some a ∧ k ∈ a.named) ↔ NamesAttr (o, [v]) k := by
      intro k
      constructor
      · rintro ⟨a, h1, h2⟩
        rw [he] at h1
        split at h1
        · rename_i hs
          rw [← Option.some.inj h1] at h2
          exact ⟨v, by rw [(diffIgnore_optArg ho).1 hs], h2⟩
        · simp at h1
      · rintro ⟨w, h1, h2⟩
        obtain ⟨rfl, h3⟩ := Prod.mk.inj h1
        rw [List.cons.injEq] at h3
        rw [← h3.1] at h2
        exact ⟨.ignore v, he.trans (if_pos rfl), h2⟩
    refine ⟨fun k => ?_, hn⟩
    have hsame : (∃ a, givenOptArg (o, [v]) = some a ∧ k ∈ setsAttrs a) ↔
        ∃ a, givenOptArg (o, [v]) = some a ∧ k ∈ a.named := by
      rw [he]
      split
      · constructor
        · rintro ⟨a, h1, h2⟩
          rw [← Option.some.inj h1] at h2
          exact ⟨_, rfl, h2⟩
        · rintro ⟨a, h1, h2⟩
          rw [← Option.some.inj h1] at h2
          exact ⟨_, rfl, h2⟩
      · simp
    rw [hsame, hn]
    constructor
    · exact .ignore
    · intro hs
      generalize hg : (o, [v]) = g at hs
      cases hs with
      | ignore hn => exact hn
      | flag => simp at hg
  · simp only at hv ht ho
    subst hv
    have hn : ∀ k, ¬ NamesAttr (o, []) k := by
      rintro k ⟨w, h1, -⟩
      simp at h1
    have hf := diffFlag_optArg ho
    refine ⟨fun k => ⟨?_, ?_⟩, fun k => ⟨?_, fun hk => absurd hk (hn k)⟩⟩
    · rintro ⟨a, h1, h2⟩
      rw [h1, Option.map_some] at hf
      cases hx : diffFlags.find? (fun x => decide (o = spec .flag [x.1])) with
      | none => simp [hx] at hf
      | some x =>
        rw [hx, Option.map_some] at hf
        rw [Option.some.inj hf] at h2
        obtain ⟨k', hk, rfl⟩ := List.mem_map.1 h2
        have ho' := List.find?_some hx
        simp only [decide_eq_true_eq] at ho'
        rw [ho']
        exact .flag (List.mem_of_find?_eq_some hx) hk
    · intro hs
      generalize hg : (o, ([] : List Str)) = g at hs
      cases hs with
      | ignore hk => exact absurd hk (hg ▸ hn k)
      | flag hm hk =>
        rw [(Prod.mk.inj hg).1, diffFlag_find hm, Option.map_some] at hf
        obtain ⟨a, h1, h2⟩ := Option.map_eq_some_iff.1 hf
        exact ⟨a, h1, by rw [h2]; exact List.mem_map_of_mem hk⟩
    · rintro ⟨a, h1, h2⟩
      rw [diffFlag_named ho a h1] at h2
      simp at h2

theorem has_snoc (given : List (OptSpec × List Str)) (g : OptSpec × List Str) (o : OptSpec) :
    Has (given ++ [g]) o ↔ Has given o ∨ g.1 = o := by
  unfold Has
  constructor
  · rintro ⟨x, hx, e⟩
    rcases List.mem_append.1 hx with hx | hx
    · exact .inl ⟨x, hx, e⟩
    · rw [List.mem_singleton] at hx
      exact .inr (hx ▸ e)
  · rintro (⟨x, hx, e⟩ | e)
    · exact ⟨x, by simp [hx], e⟩
    · exact ⟨g, by simp, e⟩

theorem ex_snoc {α : Type} (l : List α) (g : α) (p : α → Prop) :
    (∃ x ∈ l ++ [g], p x) ↔ (∃ x ∈ l, p x) ∨ p g := by
  constructor
  · rintro ⟨x, hx, e⟩
    rcases List.mem_append.1 hx with hx | hx
    · exact .inl ⟨x, hx, e⟩
    · rw [List.mem_singleton] at hx
      exact .inr (hx ▸ e)
  · rintro (⟨x, hx, e⟩ | e)
    · exact ⟨x, by simp [hx], e⟩
    · exact ⟨g, by simp, e⟩

theorem values_snoc (given : List (OptSpec × List Str)) (g : OptSpec × List Str) (o : OptSpec) :
    valuesOf (given ++ [g]) o = valuesOf given o ++ if g.1 = o then g.2 else [] := by
  unfold valuesOf
  rw [List.filter_append, List.flatMap_append]
  by_cases h : g.1 = o
  · simp [h]
  · simp [h]

/-- An attribute that is a list of patterns: `True` once `--ignore` has named it, else what was given. -/
structure PatternsAre (given : List (OptSpec × List Str)) (k : String) (o : OptSpec) (x : Option (List Str)) : Prop where
  named : (∃ g ∈ given, NamesAttr g k.toList) → x = none
  given : (¬ ∃ g ∈ given, NamesAttr g k.toList) → x = some (valuesOf given o)

/-- The namespace is as the options say. -/
structure NsMeans (given : List (OptSpec × List Str)) (ns : DiffNs) : Prop where
  flags : ∀ name : String, ns.flags.attr name = true ↔ ∃ g ∈ given, SetsFlag g name.toList
  keys : PatternsAre given "ignore_manifest_key" (spec .value ["--ignore-manifest-key"]) ns.keys
  entries : PatternsAre given "ignore_jar_entry" (spec .value ["--ignore-jar-entry"]) ns.entries
  files : PatternsAre given "ignore_filenames" (spec .value ["--ignore-filenames"]) ns.files
  unchanged : ns.showUnchanged = true ↔
    Has given (spec .flag ["--show-unchanged"]) ∨ Has given (spec .flag ["-v", "--verbose"])
  ignored : ns.showIgnored = true ↔
    Has given (spec .flag ["--show-ignored"]) ∨ Has given (spec .flag ["-v", "--verbose"])
  silent : ns.silent = true ↔ Has given (spec .flag ["-q", "--quiet"])
  json : ns.json = true ↔ Has given (spec .flag ["-j", "--json"])
  shallow : ns.shallow = true ↔ Has given (spec .flag ["--shallow"])
  output : ns.output = (valuesOf given (spec .value ["-o", "--output"])).getLast?

theorem nsMeans_nil : NsMeans [] {} := by
  have h1 : ∀ o, ¬ Has [] o := by rintro o ⟨g, hg, -⟩; simp at hg
  constructor
  · intro name
    simp [Opts.attr, PyDict.get?]
  · exact ⟨by simp, fun _ => rfl⟩
  · exact ⟨by simp, fun _ => rfl⟩
  · exact ⟨by simp, fun _ => rfl⟩
  all_goals first | rfl | simp [h1]

theorem PatternsAre.keep {given : List (OptSpec × List Str)} {k : String} {o : OptSpec} {x : Option (List Str)}
    (h : PatternsAre given k o x) {g : OptSpec × List Str} (hn : ¬ NamesAttr g k.toList) (ho : g.1 ≠ o) :
    PatternsAre (given ++ [g]) k o x := by
  constructor
  · rw [ex_snoc]
    rintro (he | he)
    · exact h.named he
    · exact absurd he hn
  · rw [ex_snoc, values_snoc, if_neg ho, List.append_nil]
    exact fun he => h.given fun hx => he (.inl hx)

theorem PatternsAre.name {given : List (OptSpec × List Str)} {k : String} {o : OptSpec} {x : Option (List Str)}
    (h : PatternsAre given k o x) {g : OptSpec × List Str} {ks : List Str}
    (hn : k.toList ∈ ks ↔ NamesAttr g k.toList) (ho : g.1 ≠ o) :
    PatternsAre (given ++ [g]) k o (if k.toList ∈ ks then none else x) := by
  by_cases hk : k.toList ∈ ks
  · rw [if_pos hk]
    refine ⟨fun _ => rfl, fun he => ?_⟩
    rw [ex_snoc] at he
    exact absurd (.inr (hn.1 hk)) he
  · rw [if_neg hk]
    exact h.keep (fun he => hk (hn.2 he)) ho

theorem PatternsAre.append {given : List (OptSpec × List Str)} {k : String} {o : OptSpec} {x y : Option (List Str)}
    (h : PatternsAre given k o x) {g : OptSpec × List Str} (hn : ¬ NamesAttr g k.toList) (ho : g.1 = o)
    (he : appendTo x g.2 = .ok y) : PatternsAre (given ++ [g]) k o y := by
  cases x with
  | none => simp [appendTo] at he
  | some l =>
    have hy : y = some (l ++ g.2) := (Except.ok.inj he).symm
    have hno : ¬ ∃ g ∈ given, NamesAttr g k.toList := fun hx => by have := h.named hx; simp at this
    have hl := Option.some.inj (h.given hno)
    refine ⟨fun hx => ?_, fun _ => ?_⟩
    · rw [ex_snoc] at hx
      rcases hx with hx | hx
      · exact absurd hx hno
      · exact absurd hx hn
    · rw [hy, values_snoc, if_pos ho, hl]

theorem dests_inj : ∀ x ∈ diffDests, ∀ y ∈ diffDests, x.1 = y.1 ↔ x.2 = y.2 := by decide +kernel

theorem optArg_dest {o : OptSpec} (ho : o ∈ Tool.distdiff.opts) (hd : PyDict.get? diffDests o ≠ none) :
    o.strings ≠ ["--ignore".toList] ∧ givenOptArg (o, []) = none := by
  have : ∀ o ∈ Tool.distdiff.opts, PyDict.get? diffDests o ≠ none →
      o.strings ≠ ["--ignore".toList] ∧ (givenOptArg (o, [])).isNone := by decide +kernel
  exact ⟨(this o ho hd).1, Option.isNone_iff_eq_none.1 (this o ho hd).2⟩

/-- Options that set attributes do nothing else. -/
theorem dest_none {g : OptSpec × List Str} (h : Fits g) {a : OptArg} (ha : givenOptArg g = some a) :
    PyDict.get? diffDests g.1 = none := by
  obtain ⟨o, args⟩ := g
  by_cases hd : PyDict.get? diffDests o = none
  · exact hd
  · obtain ⟨h1, h2⟩ := optArg_dest h.mem hd
    rcases h.arity with ⟨ht, v, hv⟩ | ⟨ht, hv⟩
    · simp only at hv
      subst hv
      have he : givenOptArg (o, [v]) = if o.strings = ["--ignore".toList] then some (.ignore v) else none := rfl
      rw [he, if_neg h1] at ha
      simp at ha
    · simp only at hv
      subst hv
      rw [h2] at ha
      simp at ha

theorem dest_ne {o : OptSpec} (hd : PyDict.get? diffDests o = none) : ∀ x ∈ diffDests, o ≠ x.1 := by
  have : ∀ x ∈ diffDests, PyDict.get? diffDests x.1 ≠ none := by decide +kernel
  intro x hx e
  exact this x hx (e ▸ hd)

theorem step_eq (ns : DiffNs) {g : OptSpec × List Str} (h : Fits g) :
    diffStep ns (.opt g.1 g.2) =
      match givenOptArg g with
      | some a => .ok (ns.ignores a)
      | none =>
        match PyDict.get? diffDests g.1 with
        | some d => d.set ns g.2
        | none => .ok ns := by
  have : ¬ (g.1.takes && g.2.isEmpty) = true := by
    rcases h.arity with ⟨ht, v, hv⟩ | ⟨ht, hv⟩
    · simp [hv]
    · simp [ht]
  simp only [diffStep]
  rw [if_neg this]
  rfl

/-- One more option. -/
theorem NsMeans.snoc {given : List (OptSpec × List Str)} {ns ns' : DiffNs} (h : NsMeans given ns)
    {g : OptSpec × List Str} (hg : Fits g) (he : diffStep ns (.opt g.1 g.2) = .ok ns') :
    NsMeans (given ++ [g]) ns' := by
  rw [step_eq ns hg] at he
  obtain ⟨hs, hn⟩ := optArg_spec hg
  cases ha : givenOptArg g with
  | some a =>
    simp only [ha] at he
    have hd := dest_ne (dest_none hg ha)
    have h1 : g.1 ≠ spec .flag ["--show-unchanged"] := hd (_, .showUnchanged) (by decide)
    have h2 : g.1 ≠ spec .flag ["-v", "--verbose"] := hd (_, .verbose) (by decide)
    have h3 : g.1 ≠ spec .flag ["--show-ignored"] := hd (_, .showIgnored) (by decide)
    have h4 : g.1 ≠ spec .flag ["-q", "--quiet"] := hd (_, .silent) (by decide)
    have h5 : g.1 ≠ spec .flag ["-j", "--json"] := hd (_, .json) (by decide)
    have h6 : g.1 ≠ spec .flag ["--shallow"] := hd (_, .shallow) (by decide)
    rw [← Except.ok.inj he]
    have hn' : ∀ k, k ∈ a.named ↔ NamesAttr g k := by
      intro k
      rw [← hn k]
      constructor
      · exact fun hk => ⟨a, ha, hk⟩
      · rintro ⟨b, hb, hk⟩
        rw [ha] at hb
        rwa [Option.some.inj hb]
    constructor
    · intro name
      rw [ex_snoc, ← h.flags name, ← hs name.toList]
      unfold DiffNs.ignores Opts.attr
      simp only
      rw [applyOpt_eq, get?_foldl_set]
      by_cases hk : name.toList ∈ setsAttrs a
      · simp [hk, ha]
      · simp [hk, ha]
    · exact h.keys.name (hn' _) (hd (_, .keys) (by decide))
    · exact h.entries.name (hn' _) (hd (_, .entries) (by decide))
    · exact h.files.name (hn' _) (hd (_, .files) (by decide))
    · rw [has_snoc, has_snoc, or_iff_left h1, or_iff_left h2]
      exact h.unchanged
    · rw [has_snoc, has_snoc, or_iff_left h3, or_iff_left h2]
      exact h.ignored
    · rw [has_snoc, or_iff_left h4]
      exact h.silent
    · rw [has_snoc, or_iff_left h5]
      exact h.json
    · rw [has_snoc, or_iff_left h6]
      exact h.shallow
    · rw [values_snoc, if_neg (hd (_, .output) (by decide)), List.append_nil]
      exact h.output
  | none =>
    simp only [ha] at he
    have hno : ∀ k, ¬ SetsFlag g k := by
      intro k hk
      obtain ⟨a, h1, -⟩ := (hs k).2 hk
      rw [ha] at h1
      simp at h1
    have hnn : ∀ k, ¬ NamesAttr g k := fun k hk => hno k (.ignore hk)
    have hflags : ∀ name : String, ns.flags.attr name = true ↔ ∃ x ∈ given ++ [g], SetsFlag x name.toList := by
      intro name
      rw [ex_snoc, ← h.flags name]
      simp [hno]
    cases hd : PyDict.get? diffDests g.1 with
    | none =>
      simp only [hd] at he
      rw [← Except.ok.inj he]
      have hd := dest_ne hd
      have h1 : g.1 ≠ spec .flag ["--show-unchanged"] := hd (_, .showUnchanged) (by decide)
      have h2 : g.1 ≠ spec .flag ["-v", "--verbose"] := hd (_, .verbose) (by decide)
      have h3 : g.1 ≠ spec .flag ["--show-ignored"] := hd (_, .showIgnored) (by decide)
      have h4 : g.1 ≠ spec .flag ["-q", "--quiet"] := hd (_, .silent) (by decide)
      have h5 : g.1 ≠ spec .flag ["-j", "--json"] := hd (_, .json) (by decide)
      have h6 : g.1 ≠ spec .flag ["--shallow"] := hd (_, .shallow) (by decide)
      constructor
      · exact hflags
      · exact h.keys.keep (hnn _) (hd (_, .keys) (by decide))
      · exact h.entries.keep (hnn _) (hd (_, .entries) (by decide))
      · exact h.files.keep (hnn _) (hd (_, .files) (by decide))
      · rw [has_snoc, has_snoc, or_iff_left h1, or_iff_left h2]
        exact h.unchanged
      · rw [has_snoc, has_snoc, or_iff_left h3, or_iff_left h2]
        exact h.ignored
      · rw [has_snoc, or_iff_left h4]
        exact h.silent
      · rw [has_snoc, or_iff_left h5]
        exact h.json
      · rw [has_snoc, or_iff_left h6]
        exact h.shallow
      · rw [values_snoc, if_neg (hd (_, .output) (by decide)), List.append_nil]
        exact h.output
    | some d =>
      simp only [hd] at he
      have hm : (g.1, d) ∈ diffDests := PyDict.mem_of_get? hd
      have hi : ∀ x ∈ diffDests, g.1 = x.1 ↔ d = x.2 := fun x hx => dests_inj _ hm x hx
      have hhas : ∀ x ∈ diffDests, (Has (given ++ [g]) x.1 ↔ Has given x.1 ∨ d = x.2) := by
        intro x hx
        rw [has_snoc, hi x hx]
      have hrest : (∀ x, d.set ns g.2 = .ok x → x.flags = ns.flags ∧
          (d ≠ .keys → x.keys = ns.keys) ∧ (d = .keys → appendTo ns.keys g.2 = .ok x.keys) ∧
          (d ≠ .entries → x.entries = ns.entries) ∧ (d = .entries → appendTo ns.entries g.2 = .ok x.entries) ∧
          (d ≠ .files → x.files = ns.files) ∧ (d = .files → appendTo ns.files g.2 = .ok x.files) ∧
          (x.showUnchanged = true ↔ ns.showUnchanged = true ∨ d = .showUnchanged ∨ d = .verbose) ∧
          (x.showIgnored = true ↔ ns.showIgnored = true ∨ d = .showIgnored ∨ d = .verbose) ∧
          (x.silent = true ↔ ns.silent = true ∨ d = .silent) ∧
          (x.json = true ↔ ns.json = true ∨ d = .json) ∧
          (x.shallow = true ↔ ns.shallow = true ∨ d = .shallow) ∧
          (d ≠ .output → x.output = ns.output) ∧ (d = .output → x.output = g.2.head?)) := by
        intro x hx
        cases d with
        | keys =>
          simp only [DiffDest.set] at hx
          cases hk : appendTo ns.keys g.2 with
          | error e => simp [hk, Except.map] at hx
          | ok l => simp only [hk, Except.map] at hx; rw [← Except.ok.inj hx]; simp
        | entries =>
          simp only [DiffDest.set] at hx
          cases hk : appendTo ns.entries g.2 with
          | error e => simp [hk, Except.map] at hx
          | ok l => simp only [hk, Except.map] at hx; rw [← Except.ok.inj hx]; simp
        | files =>
          simp only [DiffDest.set] at hx
          cases hk : appendTo ns.files g.2 with
          | error e => simp [hk, Except.map] at hx
          | ok l => simp only [hk, Except.map] at hx; rw [← Except.ok.inj hx]; simp
        | _ => rw [← Except.ok.inj hx]; simp
      obtain ⟨r1, r2, r3, r4, r5, r6, r7, r8, r9, r10, r11, r12, r13, r14⟩ := hrest ns' he
      constructor
      · rw [r1]; exact hflags
      · by_cases hk : d = .keys
        · exact h.keys.append (hnn _) ((hi (_, .keys) (by decide)).2 hk) (r3 hk)
        · rw [r2 hk]; exact h.keys.keep (hnn _) fun e => hk ((hi (_, .keys) (by decide)).1 e)
      · by_cases hk : d = .entries
        · exact h.entries.append (hnn _) ((hi (_, .entries) (by decide)).2 hk) (r5 hk)
        · rw [r4 hk]; exact h.entries.keep (hnn _) fun e => hk ((hi (_, .entries) (by decide)).1 e)
      · by_cases hk : d = .files
        · exact h.files.append (hnn _) ((hi (_, .files) (by decide)).2 hk) (r7 hk)
        · rw [r6 hk]; exact h.files.keep (hnn _) fun e => hk ((hi (_, .files) (by decide)).1 e)
      · rw [r8, h.unchanged, hhas (spec .flag ["--show-unchanged"], .showUnchanged) (by decide), hhas (spec .flag ["-v", "--verbose"], .verbose) (by decide)]
        grind
      · rw [r9, h.ignored, hhas (spec .flag ["--show-ignored"], .showIgnored) (by decide), hhas (spec .flag ["-v", "--verbose"], .verbose) (by decide)]
        grind
      · rw [r10, h.silent, hhas (spec .flag ["-q", "--quiet"], .silent) (by decide)]
      · rw [r11, h.json, hhas (spec .flag ["-j", "--json"], .json) (by decide)]
      · rw [r12, h.shallow, hhas (spec .flag ["--shallow"], .shallow) (by decide)]
      · rw [values_snoc]
        by_cases hk : d = .output
        · have ho : g.1 = spec .value ["-o", "--output"] := (hi (_, .output) (by decide)).2 hk
          rw [r14 hk, if_pos ho]
          rcases hg.arity with ⟨ht, v, hv⟩ | ⟨ht, hv⟩
          · simp [hv]
          · rw [ho] at ht
            exact absurd ht (by decide)
        · rw [r13 hk, if_neg fun e => hk ((hi (_, .output) (by decide)).1 e), List.append_nil]
          exact h.output

/-- The attributes that are lists of patterns, and the options for patterns. -/
def patternOpts : List (String × OptSpec) := [
  ("ignore_manifest_key", spec .value ["--ignore-manifest-key"]),
  ("ignore_jar_entry", spec .value ["--ignore-jar-entry"]),
  ("ignore_filenames", spec .value ["--ignore-filenames"])]

/-- A pattern is given after `--ignore` has named the option. -/
def ConflictIn (before given : List (OptSpec × List Str)) : Prop :=
  ∃ x ∈ patternOpts, ∃ pre g post, given = pre ++ g :: post ∧ g.1 = x.2 ∧ ∃ y ∈ before ++ pre, NamesAttr y x.1.toList

def Conflict (given : List (OptSpec × List Str)) : Prop := ConflictIn [] given

theorem PatternsAre.fails {given : List (OptSpec × List Str)} {k : String} {o : OptSpec} {x : Option (List Str)}
    (h : PatternsAre given k o x) (args : List Str) :
    ((∃ g ∈ given, NamesAttr g k.toList) ∧ appendTo x args = .error .attributeError) ∨
    ((¬ ∃ g ∈ given, NamesAttr g k.toList) ∧ ∃ y, appendTo x args = .ok y) := by
  by_cases hn : ∃ g ∈ given, NamesAttr g k.toList
  · refine .inl ⟨hn, ?_⟩
    rw [h.named hn]
    rfl
  · refine .inr ⟨hn, ?_⟩
    rw [h.given hn]
    exact ⟨_, rfl⟩

theorem step_fails {given : List (OptSpec × List Str)} {ns : DiffNs} (h : NsMeans given ns)
    {g : OptSpec × List Str} (hg : Fits g) :
    ((∃ x ∈ patternOpts, g.1 = x.2 ∧ ∃ y ∈ given, NamesAttr y x.1.toList) ∧
      diffStep ns (.opt g.1 g.2) = .error .attributeError) ∨
    ((¬ ∃ x ∈ patternOpts, g.1 = x.2 ∧ ∃ y ∈ given, NamesAttr y x.1.toList) ∧
      ∃ ns', diffStep ns (.opt g.1 g.2) = .ok ns') := by
  rw [step_eq ns hg]
  have hpd : ∀ x ∈ patternOpts, ∃ d, (x.2, d) ∈ diffDests ∧ (d = .keys ∨ d = .entries ∨ d = .files) := by
    intro x hx
    simp only [patternOpts, List.mem_cons, List.not_mem_nil, or_false] at hx
    rcases hx with rfl | rfl | rfl
    · exact ⟨.keys, by decide, .inl rfl⟩
    · exact ⟨.entries, by decide, .inr (.inl rfl)⟩
    · exact ⟨.files, by decide, .inr (.inr rfl)⟩
  cases ha : givenOptArg g with
  | some a =>
    refine .inr ⟨?_, _, rfl⟩
    rintro ⟨x, hx, e, -⟩
    obtain ⟨d, hd, -⟩ := hpd x hx
    exact dest_ne (dest_none hg ha) _ hd e
  | none =>
    cases hd : PyDict.get? diffDests g.1 with
    | none =>
      refine .inr ⟨?_, _, rfl⟩
      rintro ⟨x, hx, e, -⟩
      obtain ⟨d, hd', -⟩ := hpd x hx
      exact dest_ne hd _ hd' e
    | some d =>
      have hm : (g.1, d) ∈ diffDests := PyDict.mem_of_get? hd
      have hi : ∀ x ∈ diffDests, g.1 = x.1 ↔ d = x.2 := fun x hx => dests_inj _ hm x hx
      have other : d ≠ .keys → d ≠ .entries → d ≠ .files →
          ¬ ∃ x ∈ patternOpts, g.1 = x.2 ∧ ∃ y ∈ given, NamesAttr y x.1.toList := by
        rintro n1 n2 n3 ⟨x, hx, e, -⟩
        obtain ⟨d', hd', he⟩ := hpd x hx
        have : d = d' := (hi _ hd').1 e
        rw [← this] at he
        rcases he with rfl | rfl | rfl
        · exact n1 rfl
        · exact n2 rfl
        · exact n3 rfl
      have pat : ∀ (k : String) (o : OptSpec) (d' : DiffDest) (y : Option (List Str)), (k, o) ∈ patternOpts →
          (o, d') ∈ diffDests → d = d' → PatternsAre given k o y →
          ((∃ x ∈ patternOpts, g.1 = x.2 ∧ ∃ y ∈ given, NamesAttr y x.1.toList) ∧ appendTo y g.2 = .error .attributeError) ∨
          ((¬ ∃ x ∈ patternOpts, g.1 = x.2 ∧ ∃ y ∈ given, NamesAttr y x.1.toList) ∧ ∃ z, appendTo y g.2 = .ok z) := by
        intro k o d' y hk ho hdd hp
        have hgo : g.1 = o := (hi _ ho).2 hdd
        have : (∃ x ∈ patternOpts, g.1 = x.2 ∧ ∃ y ∈ given, NamesAttr y x.1.toList) ↔ ∃ y ∈ given, NamesAttr y k.toList := by
          constructor
          · rintro ⟨x, hx, e, hy⟩
            have hu : ∀ x ∈ patternOpts, ∀ y ∈ patternOpts, x.2 = y.2 → x.1 = y.1 := by decide +kernel
            rw [hu x hx _ hk (e.symm.trans hgo)] at hy
            exact hy
          · exact fun hy => ⟨_, hk, hgo, hy⟩
        rw [this]
        exact hp.fails g.2
      simp only
      cases d with
      | keys =>
        rcases pat _ _ .keys _ (by decide) (by decide) rfl h.keys with ⟨h1, h2⟩ | ⟨h1, z, h2⟩
        · exact .inl ⟨h1, by simp only [DiffDest.set, h2]; rfl⟩
        · exact .inr ⟨h1, by simp only [DiffDest.set, h2]; exact ⟨_, rfl⟩⟩
      | entries =>
        rcases pat _ _ .entries _ (by decide) (by decide) rfl h.entries with ⟨h1, h2⟩ | ⟨h1, z, h2⟩
        · exact .inl ⟨h1, by simp only [DiffDest.set, h2]; rfl⟩
        · exact .inr ⟨h1, by simp only [DiffDest.set, h2]; exact ⟨_, rfl⟩⟩
      | files =>
        rcases pat _ _ .files _ (by decide) (by decide) rfl h.files with ⟨h1, h2⟩ | ⟨h1, z, h2⟩
        · exact .inl ⟨h1, by simp only [DiffDest.set, h2]; rfl⟩
        · exact .inr ⟨h1, by simp only [DiffDest.set, h2]; exact ⟨_, rfl⟩⟩
      | _ => exact .inr ⟨other (by decide) (by decide) (by decide), _, rfl⟩

/-- All options. -/
theorem steps_spec {given given' : List (OptSpec × List Str)} {ns : DiffNs} (h : NsMeans given ns)
    (hg : ∀ g ∈ given', Fits g) :
    (ConflictIn given given' ∧ diffSteps ns (givenEvents given') = .error .attributeError) ∨
    (¬ ConflictIn given given' ∧ ∃ ns', diffSteps ns (givenEvents given') = .ok ns' ∧ NsMeans (given ++ given') ns') := by
  induction given' generalizing given ns with
  | nil =>
    refine .inr ⟨?_, ns, rfl, by rwa [List.append_nil]⟩
    rintro ⟨x, -, pre, g, post, e, -⟩
    simp at e
  | cons g rest ih =>
    have hgg := hg g List.mem_cons_self
    rcases step_fails h hgg with ⟨⟨x, hx, h1, h2⟩, h3⟩ | ⟨h1, ns1, h2⟩
    · refine .inl ⟨⟨x, hx, [], g, rest, rfl, h1, by rwa [List.append_nil]⟩, ?_⟩
      simp only [givenEvents, List.map_cons, diffSteps, h3]
    · have hc : ConflictIn given (g :: rest) ↔ ConflictIn (given ++ [g]) rest := by
        constructor
        · rintro ⟨x, hx, pre, g', post, e, hx2, hy⟩
          cases pre with
          | nil =>
            have := (List.cons.inj e).1
            rw [List.append_nil] at hy
            exact absurd ⟨x, hx, this ▸ hx2, hy⟩ h1
          | cons p pre =>
            obtain ⟨rfl, e'⟩ := List.cons.inj e
            exact ⟨x, hx, pre, g', post, e', hx2, by rwa [List.append_assoc]⟩
        · rintro ⟨x, hx, pre, g', post, e, hx2, hy⟩
          refine ⟨x, hx, g :: pre, g', post, by rw [e]; rfl, hx2, ?_⟩
          rwa [List.append_assoc] at hy
      have hs : diffSteps ns (givenEvents (g :: rest)) = diffSteps ns1 (givenEvents rest) := by
        simp only [givenEvents, List.map_cons, diffSteps, h2]
      rw [hc, hs]
      have := ih (h.snoc hgg h2) fun x hx => hg x (List.mem_cons_of_mem _ hx)
      rwa [List.append_assoc] at this

theorem steps_files (evs : List ArgEvent) (ns : DiffNs) (fs : List Str) :
    diffSteps ns (evs.filter fun ev => decide (ev ≠ .files fs)) = diffSteps ns evs := by
  induction evs generalizing ns with
  | nil => rfl
  | cons ev evs ih =>
    by_cases h : ev = .files fs
    · rw [List.filter_cons_of_neg (by simpa using h), ih, h]
      rfl
    · rw [List.filter_cons_of_pos (by simpa using h)]
      simp only [diffSteps, ih]

/-- The namespace for a command line that is accepted. -/
theorem diff_namespace (negNum : Str → Bool) {isInt : Str → Bool} {t : DiffTool} {ps : List ArgPiece} {a b : Str}
    (h : Compares isInt t ps a b) :
    ∃ evs, t.tool.parse negNum isInt (piecesWords ps) = .ok evs ∧ eventFiles evs = [a, b] ∧ reportGiven evs = false ∧
      ((Conflict (piecesGiven ps) ∧ diffSteps {} evs = .error .attributeError) ∨
       (¬ Conflict (piecesGiven ps) ∧ ∃ ns, diffSteps {} evs = .ok ns ∧ NsMeans (piecesGiven ps) ns)) := by
  have hr : OneRun t.tool.nargs ps := by
    have : t.tool.nargs = .two := by cases t <;> rfl
    rw [this]
    exact h.run
  obtain ⟨evs, h1, h2, h3⟩ := C134_partial (negNum := negNum) t.tool h.good hr
  obtain ⟨evs', h1', hm, h4⟩ := parsed_events negNum h.good hr
  rw [h1] at h1'
  obtain rfl := Except.ok.inj h1'
  refine ⟨evs, h1, h4.trans h.files, ?_, ?_⟩
  · unfold reportGiven
    rw [List.any_eq_false]
    intro ev hev
    rcases (hm ev).1 hev with rfl | ⟨g, hg, rfl⟩
    · simp
    · simpa using fun e => h.noReport ⟨g, hg, e⟩
  · have := steps_spec nsMeans_nil (good_fits h.good)
    rw [List.nil_append, ← h2, steps_files] at this
    exact this

/-! ## Asking changes -/

namespace Change

/-- Something raises. -/
def Poisoned (ns : DiffNs) : Prop := ∃ name, ns.raises name = true

theorem isIgnoredNs_or (ns : DiffNs) : (c : Change DiffOpts) →
    (Poisoned ns ∧ isIgnoredNs ns c = .error .typeError) ∨ isIgnoredNs ns c = .ok (c.isIgnored ns.opts)
  | .leaf h cmp changed desc => by
    simp only [isIgnoredNs]
    by_cases hr : ns.raises h.typeName = true
    · rw [if_pos hr]; exact .inl ⟨⟨_, hr⟩, rfl⟩
    · rw [if_neg hr]; exact .inr rfl
  | .super h short changed desc children => by
    have hall : ∀ cs : List (Change DiffOpts), (∀ c ∈ cs, c ∈ children) →
        (Poisoned ns ∧ allIgnoredNs ns cs = .error .typeError) ∨
          allIgnoredNs ns cs = .ok (allIgnored ns.opts cs) := by
      intro cs hcs
      induction cs with
      | nil => exact .inr rfl
      | cons c cs ih =>
        have hm := hcs c List.mem_cons_self
        have : sizeOf c < sizeOf children := List.sizeOf_lt_of_mem hm
        have ih := ih fun x hx => hcs x (List.mem_cons_of_mem _ hx)
        simp only [allIgnoredNs, allIgnored]
        cases hc : c.isChange
        · simpa using ih
        · rcases isIgnoredNs_or ns c with ⟨h1, h2⟩ | h1
          · exact .inl ⟨h1, by simp [h2]⟩
          · cases hi : c.isIgnored ns.opts
            · right; simp [h1, hi]
            · simp only [h1, hi]
              simpa using ih
    have hc := hall children fun _ h => h
    simp only [isIgnoredNs, isIgnored]
    by_cases hr : ns.raises h.typeName = true
    · rw [if_pos hr]; exact .inl ⟨⟨_, hr⟩, rfl⟩
    · rw [if_neg hr]
      cases h.ign with
      | only rule => exact .inr rfl
      | inherit =>
        simp only
        split
        · exact .inr rfl
        · split
          · exact .inr rfl
          · exact hc
      | orElse rule =>
        simp only
        cases rule ns.opts
        · simp only [Bool.false_or]
          rw [if_neg (by simp)]
          split
          · exact .inr rfl
          · split
            · exact .inr rfl
            · exact hc
        · exact .inr rfl
  | .squashed .. => .inr rfl
termination_by c => sizeOf c

/-- The line of a change that is shown. -/
def lineShown (o : DiffOpts) (s : ShowOpts) (n : Nat) (c : Change DiffOpts) : Option Str :=
  if c.isChange then
    if c.isIgnored o then
      if s.showIgnored then some (indentLine n [c.getDescription, " [IGNORED]".toList]) else none
    else some (indentLine n [c.getDescription])
  else if s.showUnchanged then some (indentLine n [c.getDescription]) else none

theorem ite_line {α : Type} (a b c d : Bool) (x y : α) (rest : List α) :
    (if a then if b then if c then x :: rest else [] else y :: rest else if d then y :: rest else []) =
      match (if a then if b then if c then some x else none else some y else if d then some y else none) with
      | none => []
      | some l => l :: rest := by
  cases a <;> cases b <;> cases c <;> cases d <;> rfl

theorem lineNs_or (ns : DiffNs) (n : Nat) (c : Change DiffOpts) :
    (Poisoned ns ∧ lineNs ns n c = .error .typeError) ∨ lineNs ns n c = .ok (lineShown ns.opts ns.show n c) := by
  unfold lineNs lineShown
  generalize " [IGNORED]".toList = x
  by_cases hc : c.isChange = true
  · rw [if_pos hc, if_pos hc]
    rcases isIgnoredNs_or ns c with ⟨h1, h2⟩ | h1
    · rw [h2]
      exact .inl ⟨h1, rfl⟩
    · rw [h1]
      right
      by_cases hi : c.isIgnored ns.opts = true
      · rw [hi]; rfl
      · rw [Bool.not_eq_true] at hi
        rw [hi]; rfl
  · rw [if_neg hc, if_neg hc]
    exact .inr rfl

theorem indentNs_or (ns : DiffNs) : (c : Change DiffOpts) → (n : Nat) →
    (Poisoned ns ∧ (indentNs ns n c).2 = some .typeError) ∨
      indentNs ns n c = ((indentChange ns.opts ns.show n c).flatten, none)
  | .leaf h cmp changed desc, n => by
    simp only [indentNs, indentChange]
    rcases lineNs_or ns n (.leaf h cmp changed desc) with ⟨h1, h2⟩ | h1
    · exact .inl ⟨h1, by simp [h2]⟩
    · right
      rw [h1, ite_line]
      rw [← lineShown.eq_1 ns.opts ns.show n (.leaf h cmp changed desc)]
      cases lineShown ns.opts ns.show n (.leaf h cmp changed desc) <;> simp [say]
  | .super h short changed desc children, n => by
    have hall : ∀ cs : List (Change DiffOpts), (∀ c ∈ cs, c ∈ children) →
        (Poisoned ns ∧ (indentAllNs ns (n + 1) cs).2 = some .typeError) ∨
          indentAllNs ns (n + 1) cs = ((indentAll ns.opts ns.show (n + 1) cs).flatten, none) := by
      intro cs hcs
      induction cs with
      | nil => exact .inr rfl
      | cons c cs ih =>
        have hm := hcs c List.mem_cons_self
        have : sizeOf c < sizeOf children := List.sizeOf_lt_of_mem hm
        have ih := ih fun x hx => hcs x (List.mem_cons_of_mem _ hx)
        simp only [indentAllNs, indentAll, seqOut_cons, seqOut_nil]
        rcases indentNs_or ns c (n + 1) with ⟨h1, h2⟩ | h1
        · exact .inl ⟨h1, by simp [andThen, h2]⟩
        · rcases ih with ⟨h3, h4⟩ | h3
          · exact .inl ⟨h3, by simp [andThen, h1, h4]⟩
          · right; simp [andThen, h1, h3]
    have hc := hall children fun _ h => h
    simp only [indentNs, indentChange]
    rcases lineNs_or ns n (.super h short changed desc children) with ⟨h1, h2⟩ | h1
    · exact .inl ⟨h1, by simp [h2]⟩
    · rw [h1, ite_line]
      rw [← lineShown.eq_1 ns.opts ns.show n (.super h short changed desc children)]
      cases lineShown ns.opts ns.show n (.super h short changed desc children) with
      | none => exact .inr rfl
      | some l =>
        rcases hc with ⟨h3, h4⟩ | h3
        · exact .inl ⟨h3, by simp [andThen, say, h4]⟩
        · right; simp [andThen, say, h3]
  | .squashed h oc changed desc ignored, n => by
    simp only [indentNs, indentChange]
    rcases lineNs_or ns n (.squashed h oc changed desc ignored) with ⟨h1, h2⟩ | h1
    · exact .inl ⟨h1, by simp [h2]⟩
    · right
      rw [h1, ite_line]
      rw [← lineShown.eq_1 ns.opts ns.show n (.squashed h oc changed desc ignored)]
      cases lineShown ns.opts ns.show n (.squashed h oc changed desc ignored) <;> simp [say]
termination_by c => sizeOf c

theorem jsonRaises_or (ns : DiffNs) : (c : Change DiffOpts) →
    (Poisoned ns ∧ jsonRaises ns c = some .typeError) ∨ jsonRaises ns c = none
  | .leaf h cmp changed desc => by
    simp only [jsonRaises]
    rcases isIgnoredNs_or ns (.leaf h cmp changed desc) with ⟨h1, h2⟩ | h1
    · exact .inl ⟨h1, by simp [h2]⟩
    · exact .inr (by simp [h1])
  | .super h short changed desc children => by
    have hall : ∀ cs : List (Change DiffOpts), (∀ c ∈ cs, c ∈ children) →
        (Poisoned ns ∧ jsonRaisesAll ns cs = some .typeError) ∨ jsonRaisesAll ns cs = none := by
      intro cs hcs
      induction cs with
      | nil => exact .inr rfl
      | cons c cs ih =>
        have hm := hcs c List.mem_cons_self
        have : sizeOf c < sizeOf children := List.sizeOf_lt_of_mem hm
        have ih := ih fun x hx => hcs x (List.mem_cons_of_mem _ hx)
        have hj : ∀ x : Option PyErr,
            (Poisoned ns ∧ x = some .typeError) ∨ x = none →
            (Poisoned ns ∧ (match x with | some e => some e | none => jsonRaisesAll ns cs) = some .typeError) ∨
              (match x with | some e => some e | none => jsonRaisesAll ns cs) = none := by
          rintro x (⟨h1, rfl⟩ | rfl)
          · exact .inl ⟨h1, rfl⟩
          · exact ih
        have hjc := hj _ (jsonRaises_or ns c)
        simp only [jsonRaisesAll]
        split
        · rcases isIgnoredNs_or ns c with ⟨h1, h2⟩ | h1
          · exact .inl ⟨h1, by simp [h2]⟩
          · simp only [h1]
            split
            · exact hjc
            · exact ih
        · split
          · exact hjc
          · exact ih
    simp only [jsonRaises]
    rcases isIgnoredNs_or ns (.super h short changed desc children) with ⟨h1, h2⟩ | h1
    · exact .inl ⟨h1, by simp [h2]⟩
    · simp only [h1]
      exact hall children fun _ h => h
  | .squashed .. => .inr rfl
termination_by c => sizeOf c

theorem jsonNs_or (ns : DiffNs) (c : Change DiffOpts) :
    (Poisoned ns ∧ jsonNs ns c = .error .typeError) ∨ jsonNs ns c = .ok (c.toJson ns.opts ns.show) := by
  unfold jsonNs
  rcases jsonRaises_or ns c with ⟨h1, h2⟩ | h1
  · exact .inl ⟨h1, by simp [h2]⟩
  · exact .inr (by simp [h1])

theorem statusNs_or (ns : DiffNs) (c : Change DiffOpts) :
    (Poisoned ns ∧ statusNs ns c = .error .typeError) ∨ statusNs ns c = .ok (c.exitStatus ns.opts) := by
  unfold statusNs exitStatus
  cases hc : c.isChange
  · exact .inr rfl
  · rcases isIgnoredNs_or ns c with ⟨h1, h2⟩ | h1
    · exact .inl ⟨h1, by simp [h2, Except.map]⟩
    · right
      simp only [h1, Except.map]
      cases c.isIgnored ns.opts <;> rfl

/-- Nothing is printed for a comparison with exit status 0, and something for the others, unless it is asked for
what is not a change. -/
theorem textReport_nil {O : Type} (o : O) (c : Change O) :
    c.textReport o { } = [] ↔ c.exitStatus o = 0 := by
  have hne : ∀ (n : Nat) (ms : List Str) (rest : List Str), (indentLine n ms :: rest).flatten ≠ [] := by
    intro n ms rest h
    simp [indentLine] at h
  unfold textReport exitStatus
  cases c with
  | leaf h cmp changed desc =>
    simp only [indentChange]
    cases (leaf h cmp changed desc).isChange
    · simp
    · cases (leaf h cmp changed desc).isIgnored o
      · simpa using hne 0 _ []
      · simp
  | super h short changed desc children =>
    simp only [indentChange]
    cases (super h short changed desc children).isChange
    · simp
    · cases (super h short changed desc children).isIgnored o
      · simpa using hne 0 _ _
      · simp
  | squashed h oc changed desc ignored =>
    simp only [indentChange]
    cases (squashed h oc changed desc ignored).isChange
    · simp
    · cases (squashed h oc changed desc ignored).isIgnored o
      · simpa using hne 0 _ []
      · simp

end Change

/-! ## Runs -/

/-- What the namespace asks for. -/
def DiffNs.args (ns : DiffNs) : DiffArgs := ⟨ns.opts, ns.show, ns.silent, ns.json, ns.shallow, ns.dest⟩

theorem dest_none_open {W : DiffWorld} {d : Option Str} (h : d.bind W.cannotOpen = none) :
    ∀ name e, d = some name → ¬ W.cannotOpen name = some e := by
  rintro name e rfl he
  simp [he] at h

theorem RunIs.of {O : Type} {W : DiffWorld} {A : DiffArgs} {o : O} {c : Change O} {run : DiffRun}
    (hq : A.quiet = true → run = ⟨none, .ok (c.exitStatus o)⟩)
    (hr : A.quiet = false → ∀ e, A.dest.bind W.cannotOpen = some e → run = ⟨none, .error e⟩)
    (ht : A.quiet = false → A.json = false → A.dest.bind W.cannotOpen = none →
      run = ⟨some (A.dest, .text (c.textReport o A.shows)), .ok (c.exitStatus o)⟩)
    (hj : A.quiet = false → A.json = true → A.dest.bind W.cannotOpen = none →
      run = ⟨some (A.dest, .json (c.toJson o A.shows)), .ok (c.exitStatus o)⟩) : RunIs W A o c run := by
  have hopen : (∀ name, A.dest = some name → W.cannotOpen name = none) → A.dest.bind W.cannotOpen = none := by
    intro h
    cases hd : A.dest with
    | none => rfl
    | some name => exact h name hd
  refine ⟨hq, ?_, fun h1 h2 h3 => ht h1 h2 (hopen h3), fun h1 h2 h3 => hj h1 h2 (hopen h3)⟩
  intro h1 name e hd he
  exact hr h1 e (by rw [hd]; exact he)

theorem finish_is {O : Type} (W : DiffWorld) (ns : DiffNs) (o : O) (c : Change O) :
    RunIs W ns.args o c
      (finishRun W ns (c.textReport o ns.show, none) (.ok (c.toJson o ns.show)) (.ok (c.exitStatus o))) := by
  refine .of ?_ ?_ ?_ ?_
  · intro h
    simp only [DiffNs.args] at h
    simp [finishRun, h]
  · intro h e he
    simp only [DiffNs.args] at h he
    simp [finishRun, h, he, DiffRun.fails]
  · intro h hj he
    simp only [DiffNs.args] at h he hj
    simp [finishRun, h, he, hj, DiffNs.args]
  · intro h hj he
    simp only [DiffNs.args] at h he hj
    simp [finishRun, h, he, hj, DiffNs.args]

theorem finish_or (W : DiffWorld) (ns : DiffNs) (c : Change DiffOpts) :
    (Change.Poisoned ns ∧
      (finishRun W ns (c.indentNs ns 0) (c.jsonNs ns) (c.statusNs ns)).status = .error .typeError) ∨
    RunIs W ns.args ns.opts c (finishRun W ns (c.indentNs ns 0) (c.jsonNs ns) (c.statusNs ns)) := by
  rcases Change.statusNs_or ns c with ⟨hp, h1⟩ | h1
  · cases hs : ns.silent
    · cases hd : ns.dest.bind W.cannotOpen with
      | some e =>
        refine .inr (.of ?_ ?_ ?_ ?_) <;> intro h <;> simp only [DiffNs.args, hs, hd] at h ⊢
        · simp at h
        · intro e' he
          rw [← Option.some.inj he]
          simp [finishRun, hs, hd, DiffRun.fails]
        · simp
        · simp
      | none =>
        refine .inl ⟨hp, ?_⟩
        cases hj : ns.json
        · rcases Change.indentNs_or ns c 0 with ⟨-, h2⟩ | h2
          · rcases hx : Change.indentNs ns 0 c with ⟨x, y⟩
            rw [hx] at h2
            simp only at h2
            simp [finishRun, hs, hd, hj, h2]
          · simp [finishRun, hs, hd, hj, h2, h1]
        · rcases Change.jsonNs_or ns c with ⟨-, h2⟩ | h2
          · simp [finishRun, hs, hd, hj, h2, DiffRun.fails]
          · simp [finishRun, hs, hd, hj, h2, h1]
    · exact .inl ⟨hp, by simp [finishRun, hs, h1]⟩
  · rcases Change.indentNs_or ns c 0 with ⟨hp, h2⟩ | h2
    · rcases Change.jsonNs_or ns c with ⟨-, h3⟩ | h3
      · cases hs : ns.silent
        · cases hd : ns.dest.bind W.cannotOpen with
          | some e =>
            refine .inr (.of ?_ ?_ ?_ ?_) <;> intro h <;> simp only [DiffNs.args, hs, hd] at h ⊢
            · simp at h
            · intro e' he
              rw [← Option.some.inj he]
              simp [finishRun, hs, hd, DiffRun.fails]
            · simp
            · simp
          | none =>
            refine .inl ⟨hp, ?_⟩
            cases hj : ns.json
            · rcases hx : Change.indentNs ns 0 c with ⟨x, y⟩
              rw [hx] at h2
              simp only at h2
              simp [finishRun, hs, hd, hj, h2]
            · simp [finishRun, hs, hd, hj, h3, DiffRun.fails]
        · refine .inr (.of ?_ ?_ ?_ ?_) <;> intro h <;> simp only [DiffNs.args, hs] at h ⊢
          · simp [finishRun, hs, h1]
          all_goals simp at h
      · cases hs : ns.silent
        · cases hd : ns.dest.bind W.cannotOpen with
          | some e =>
            refine .inr (.of ?_ ?_ ?_ ?_) <;> intro h <;> simp only [DiffNs.args, hs, hd] at h ⊢
            · simp at h
            · intro e' he
              rw [← Option.some.inj he]
              simp [finishRun, hs, hd, DiffRun.fails]
            · simp
            · simp
          | none =>
            cases hj : ns.json
            · refine .inl ⟨hp, ?_⟩
              rcases hx : Change.indentNs ns 0 c with ⟨x, y⟩
              rw [hx] at h2
              simp only at h2
              simp [finishRun, hs, hd, hj, h2]
            · refine .inr (.of ?_ ?_ ?_ ?_) <;> intro h <;> simp only [DiffNs.args, hs, hd, hj] at h ⊢
              · simp at h
              · simp
              · simp
              · simp [finishRun, hs, hd, hj, h1, h3]
        · refine .inr (.of ?_ ?_ ?_ ?_) <;> intro h <;> simp only [DiffNs.args, hs] at h ⊢
          · simp [finishRun, hs, h1]
          all_goals simp at h
    · rcases Change.jsonNs_or ns c with ⟨hp, h3⟩ | h3
      · cases hs : ns.silent
        · cases hd : ns.dest.bind W.cannotOpen with
          | some e =>
            refine .inr (.of ?_ ?_ ?_ ?_) <;> intro h <;> simp only [DiffNs.args, hs, hd] at h ⊢
            · simp at h
            · intro e' he
              rw [← Option.some.inj he]
              simp [finishRun, hs, hd, DiffRun.fails]
            · simp
            · simp
          | none =>
            cases hj : ns.json
            · refine .inr (.of ?_ ?_ ?_ ?_) <;> intro h <;> simp only [DiffNs.args, hs, hd, hj] at h ⊢
              · simp at h
              · simp
              · simp [finishRun, hs, hd, hj, h1, h2, Change.textReport]
              · simp
            · exact .inl ⟨hp, by simp [finishRun, hs, hd, hj, h3, DiffRun.fails]⟩
        · refine .inr (.of ?_ ?_ ?_ ?_) <;> intro h <;> simp only [DiffNs.args, hs] at h ⊢
          · simp [finishRun, hs, h1]
          all_goals simp at h
      · rw [h1, h2, h3]
        exact .inr (finish_is W ns ns.opts c)

theorem RunIs.congr {O : Type} {R : O → O → Prop} {W : DiffWorld} {A A' : DiffArgs} {o o' : O} {c : Change O}
    {run : DiffRun} (h : RunIs W A o c run) (hq : A'.quiet = A.quiet) (hj : A'.json = A.json)
    (hs : A'.shows = A.shows) (hd : A'.dest = A.dest) (hr : R o' o) (hc : Change.Resp R c) : RunIs W A' o' c run := by
  constructor
  · rw [hq, Change.exitStatus_resp hr hc]; exact h.quiet
  · rw [hq, hd]; exact h.refused
  · rw [hq, hd, hj, hs, Change.exitStatus_resp hr hc, Change.textReport_resp hr _ hc]; exact h.text
  · rw [hq, hd, hj, hs, Change.exitStatus_resp hr hc, Change.toJson_resp hr _ _ hc]; exact h.json

theorem ShowOpts_ext {s t : Change.ShowOpts} (h1 : s.showUnchanged = t.showUnchanged)
    (h2 : s.showIgnored = t.showIgnored) : s = t := by
  cases s; cases t; simp_all

theorem dest_iff (ns : DiffNs) (name : Str) : ns.dest = some name ↔ name ≠ [] ∧ ns.output = some name := by
  unfold DiffNs.dest
  split
  · rename_i h
    rw [h]
    constructor
    · simp
    · rintro ⟨h1, h2⟩
      exact absurd (Option.some.inj h2).symm h1
  · rename_i h
    constructor
    · intro e
      refine ⟨?_, e⟩
      rintro rfl
      exact h e
    · exact fun e => e.2

/-- The namespace and the command line say the same. -/
structure Agree (ns : DiffNs) (A : DiffArgs) : Prop where
  flags : SameFlags A.opts.flags ns.flags
  shows : A.shows = ns.show
  quiet : A.quiet = ns.silent
  json : A.json = ns.json
  shallow : A.shallow = ns.shallow
  dest : A.dest = ns.dest

theorem NsMeans.agree {given : List (OptSpec × List Str)} {ns : DiffNs} (h : NsMeans given ns) {A : DiffArgs}
    (hA : DiffMeans given A) : Agree ns A := by
  constructor
  · intro name
    exact Bool.eq_iff_iff.2 ((hA.flags name).trans (h.flags name).symm)
  · exact ShowOpts_ext (Bool.eq_iff_iff.2 (hA.unchanged.trans h.unchanged.symm))
      (Bool.eq_iff_iff.2 (hA.ignored.trans h.ignored.symm))
  · exact Bool.eq_iff_iff.2 (hA.quiet.trans h.silent.symm)
  · exact Bool.eq_iff_iff.2 (hA.json.trans h.json.symm)
  · exact Bool.eq_iff_iff.2 (hA.shallow.trans h.shallow.symm)
  · refine Option.ext fun name => ?_
    rw [hA.dest, dest_iff, h.output]

/-- `--ignore` names no option for patterns. -/
def Clean (given : List (OptSpec × List Str)) : Prop := ∀ g ∈ given, ∀ x ∈ patternOpts, ¬ NamesAttr g x.1.toList

theorem Clean.noConflict {given : List (OptSpec × List Str)} (h : Clean given) : ¬ Conflict given := by
  rintro ⟨x, hx, pre, g, post, e, -, y, hy, hn⟩
  rw [List.nil_append] at hy
  exact h y (by rw [e]; simp [hy]) x hx hn

theorem Clean.some {given : List (OptSpec × List Str)} (h : Clean given) {ns : DiffNs} (hn : NsMeans given ns) :
    ¬ Change.Poisoned ns ∧ ns.keys = some (valuesOf given (spec .value ["--ignore-manifest-key"])) ∧
      ns.entries = some (valuesOf given (spec .value ["--ignore-jar-entry"])) ∧
      ns.files = some (valuesOf given (spec .value ["--ignore-filenames"])) := by
  have h1 := hn.keys.given fun ⟨g, hg, he⟩ => h g hg ("ignore_manifest_key", _) (.head _) he
  have h2 := hn.entries.given fun ⟨g, hg, he⟩ => h g hg ("ignore_jar_entry", _) (.tail _ (.head _)) he
  have h3 := hn.files.given fun ⟨g, hg, he⟩ => h g hg ("ignore_filenames", _) (.tail _ (.tail _ (.head _))) he
  refine ⟨?_, h1, h2, h3⟩
  rintro ⟨name, hr⟩
  simp [DiffNs.raises, h1, h2, h3] at hr

theorem means_of {given : List (OptSpec × List Str)} (h : ∀ g ∈ given, Fits g) : ∃ A, DiffMeans given A := by
  classical
  let flagsOf : Opts := parseOpts (given.filterMap givenOptArg)
  have hf : ∀ name : String, flagsOf.attr name = true ↔ ∃ g ∈ given, SetsFlag g name.toList := by
    intro name
    rw [C43_parsed]
    constructor
    · rintro ⟨x, hx, hk⟩
      obtain ⟨g, hg, hx⟩ := List.mem_filterMap.1 hx
      exact ⟨g, hg, ((optArg_spec (h g hg)).1 _).1 ⟨x, hx, hk⟩⟩
    · rintro ⟨g, hg, hk⟩
      obtain ⟨x, hx, hk⟩ := ((optArg_spec (h g hg)).1 _).2 hk
      exact ⟨x, List.mem_filterMap.2 ⟨g, hg, hx⟩, hk⟩
  refine ⟨⟨⟨flagsOf, valuesOf given (spec .value ["--ignore-manifest-key"]),
    valuesOf given (spec .value ["--ignore-jar-entry"]), valuesOf given (spec .value ["--ignore-filenames"])⟩,
    ⟨decide (Has given (spec .flag ["--show-unchanged"]) ∨ Has given (spec .flag ["-v", "--verbose"])),
      decide (Has given (spec .flag ["--show-ignored"]) ∨ Has given (spec .flag ["-v", "--verbose"]))⟩,
    decide (Has given (spec .flag ["-q", "--quiet"])), decide (Has given (spec .flag ["-j", "--json"])),
    decide (Has given (spec .flag ["--shallow"])),
    (valuesOf given (spec .value ["-o", "--output"])).getLast?.filter fun n => decide (n ≠ [])⟩, ?_⟩
  constructor
  · exact hf
  · rfl
  · rfl
  · rfl
  · exact decide_eq_true_iff
  · exact decide_eq_true_iff
  · exact decide_eq_true_iff
  · exact decide_eq_true_iff
  · exact decide_eq_true_iff
  · intro name
    simp only [Option.filter_eq_some_iff, decide_eq_true_eq]
    exact and_comm

theorem nameDist_resp {a b : Str} {c : Change DiffOpts} (h : Change.Resp SameOpts c) :
    Change.Resp SameOpts (nameDist a b c) := by
  cases h with
  | leaf h => exact .leaf h
  | super h1 h2 => exact .super h1 h2
  | squashed => exact .squashed

theorem delta_resp (W : DiffWorld) (t : DiffTool) (shallow : Bool) (a b : Str) {c : Change DiffOpts}
    (h : (deltaOf W t shallow a b).bind Change.check = .ok c) : Change.Resp SameOpts c := by
  cases hd : deltaOf W t shallow a b with
  | error e => rw [hd] at h; simp [Except.bind] at h
  | ok d =>
    rw [hd] at h
    refine Change.check_resp d ?_ h
    unfold deltaOf at hd
    split at hd
    · rw [← Except.ok.inj hd]
      exact nameDist_resp (dist_resp ..)
    · cases hl : W.jar a with
      | error e => simp [hl, Except.bind] at hd
      | ok l =>
        cases hr : W.jar b with
        | error e => simp [hl, hr, Except.bind] at hd
        | ok r =>
          simp only [hl, hr, Except.bind] at hd
          rw [← Except.ok.inj hd]
          exact jar_resp ..

/-! ## C140 -/

/-- Reading and comparing two class files. -/
def classDelta (W : DiffWorld) (a b : Str) : Res (Change Opts) :=
  (W.cls a).bind fun l => (W.cls b).bind fun r => (javaClassChange W.E.T W.E.lim W.E.depth l r).check

theorem classDelta_resp {W : DiffWorld} {a b : Str} {c : Change Opts} (h : classDelta W a b = .ok c) :
    Change.Resp SameFlags c := by
  unfold classDelta at h
  cases hl : W.cls a with
  | error e => simp [hl, Except.bind] at h
  | ok l =>
    cases hr : W.cls b with
    | error e => simp [hl, hr, Except.bind] at h
    | ok r =>
      simp only [hl, hr, Except.bind] at h
      exact Change.check_resp _ (javaClass_resp ..) h

section
variable (negNum : Str → Bool) {isInt : Str → Bool} (W : DiffWorld) (other : List ArgEvent → DiffRun)

theorem classdiff_noConflict {ps : List ArgPiece} (h : ∀ p ∈ ps, p.Good isInt Tool.classdiff.opts) :
    ¬ Conflict (piecesGiven ps) := by
  rintro ⟨x, hx, pre, g, post, e, hg, -⟩
  have := good_mem h g (by rw [e]; simp)
  rw [hg] at this
  have hno : ∀ x ∈ patternOpts, x.2 ∉ Tool.classdiff.opts := by decide +kernel
  exact hno x hx this

/-- C140: a run of classdiff ends with the exception that reading or comparing raises, or else with the exit
status of the comparison and the report that is asked for. -/
theorem C140_run {ps : List ArgPiece} {a b : Str} (h : Compares isInt .classdiff ps a b) {A : DiffArgs}
    (hA : DiffMeans (piecesGiven ps) A) :
    (∀ e, classDelta W a b = .error e →
      diffMain negNum isInt W other .classdiff (piecesWords ps) = ⟨none, .error e⟩) ∧
    (∀ c, classDelta W a b = .ok c →
      RunIs W A A.opts.flags c (diffMain negNum isInt W other .classdiff (piecesWords ps))) := by
  obtain ⟨evs, h1, h2, h3, h4⟩ := diff_namespace negNum h
  rcases h4 with ⟨h4, -⟩ | ⟨-, ns, h4, hn⟩
  · exact absurd h4 (classdiff_noConflict h.good)
  have hag := hn.agree hA
  have he : diffMain negNum isInt W other .classdiff (piecesWords ps) = diffCli W .classdiff ns a b := by
    unfold diffMain
    rw [h1]
    simp [h4, h3, h2]
  rw [he]
  constructor
  · intro e hc
    unfold classDelta at hc
    simp only [diffCli, hc]
    rfl
  · intro c hc
    have hr := classDelta_resp hc
    unfold classDelta at hc
    simp only [diffCli, hc]
    exact (finish_is W ns ns.flags c).congr hag.quiet hag.json hag.shows hag.dest hag.flags hr

/-- C140, there is always something that the options mean. -/
theorem C140_means {t : DiffTool} {ps : List ArgPiece} (h : ∀ p ∈ ps, p.Good isInt t.tool.opts) :
    ∃ A, DiffMeans (piecesGiven ps) A := means_of (good_fits h)
end

/-- C140: without `-v` and the like, nothing is printed exactly if the exit status is 0. -/
theorem C140_nothing {O : Type} {W : DiffWorld} {A : DiffArgs} {o : O} {c : Change O} {run : DiffRun}
    (h : RunIs W A o c run) (h1 : A.shows.showUnchanged = false) (h2 : A.shows.showIgnored = false)
    {dest : Option Str} {s : Str} (hp : run.printed = some (dest, .text s)) :
    dest = A.dest ∧ (s = [] ↔ run.status = .ok 0) := by
  have hs : A.shows = {} := ShowOpts_ext h1 h2
  cases hq : A.quiet
  · by_cases ho : ∀ name, A.dest = some name → W.cannotOpen name = none
    · cases hj : A.json
      · have := h.text hq hj ho
        rw [this] at hp ⊢
        have hp1 := Option.some.inj hp
        obtain ⟨rfl, hp2⟩ := Prod.mk.inj hp1
        refine ⟨rfl, ?_⟩
        rw [← Rendered.text.inj hp2, hs, Change.textReport_nil]
        simp
      · have := h.json hq hj ho
        rw [this] at hp
        simp at hp
    · simp only [Classical.not_forall] at ho
      obtain ⟨name, hd, he⟩ := ho
      cases hc : W.cannotOpen name with
      | none => exact absurd hc he
      | some e =>
        rw [h.refused hq name e hd hc] at hp
        simp at hp
  · rw [h.quiet hq] at hp
    simp at hp

theorem RunIs.unique {O : Type} {W : DiffWorld} {A : DiffArgs} {o : O} {c : Change O} {run run' : DiffRun}
    (h : RunIs W A o c run) (h' : RunIs W A o c run') : run = run' := by
  cases hq : A.quiet
  · by_cases ho : ∀ name, A.dest = some name → W.cannotOpen name = none
    · cases hj : A.json
      · exact (h.text hq hj ho).trans (h'.text hq hj ho).symm
      · exact (h.json hq hj ho).trans (h'.json hq hj ho).symm
    · simp only [Classical.not_forall] at ho
      obtain ⟨name, hd, he⟩ := ho
      cases hc : W.cannotOpen name with
      | none => exact absurd hc he
      | some e => exact (h.refused hq name e hd hc).trans (h'.refused hq name e hd hc).symm
  · exact (h.quiet hq).trans (h'.quiet hq).symm

theorem RunIs.status {O : Type} {W : DiffWorld} {A : DiffArgs} {o : O} {c : Change O} {run : DiffRun}
    (h : RunIs W A o c run) (ho : ∀ name, A.dest = some name → W.cannotOpen name = none) :
    run.status = .ok (c.exitStatus o) := by
  cases hq : A.quiet
  · cases hj : A.json
    · rw [h.text hq hj ho]
    · rw [h.json hq hj ho]
  · rw [h.quiet hq]

theorem has_same {given given' : List (OptSpec × List Str)} (h : ∀ g, g ∈ given ↔ g ∈ given') (o : OptSpec) :
    Has given o ↔ Has given' o :=
  ⟨fun ⟨g, hg, he⟩ => ⟨g, (h g).1 hg, he⟩, fun ⟨g, hg, he⟩ => ⟨g, (h g).2 hg, he⟩⟩

theorem DiffMeans.same {given given' : List (OptSpec × List Str)} {A : DiffArgs} (hA : DiffMeans given A)
    (h : ∀ g, g ∈ given ↔ g ∈ given')
    (ho : ∀ o, o = spec .value ["-o", "--output"] ∨ (∃ x ∈ patternOpts, o = x.2) → valuesOf given o = valuesOf given' o) :
    DiffMeans given' A := by
  constructor
  · intro name
    rw [hA.flags]
    exact ⟨fun ⟨g, hg, he⟩ => ⟨g, (h g).1 hg, he⟩, fun ⟨g, hg, he⟩ => ⟨g, (h g).2 hg, he⟩⟩
  · rw [hA.keys, ho _ (.inr ⟨_, .head _, rfl⟩)]
  · rw [hA.entries, ho _ (.inr ⟨_, .tail _ (.head _), rfl⟩)]
  · rw [hA.files, ho _ (.inr ⟨_, .tail _ (.tail _ (.head _)), rfl⟩)]
  · rw [hA.unchanged, has_same h, has_same h]
  · rw [hA.ignored, has_same h, has_same h]
  · rw [hA.quiet, has_same h]
  · rw [hA.json, has_same h]
  · rw [hA.shallow, has_same h]
  · intro name
    rw [hA.dest, ho _ (.inl rfl)]

section
variable (negNum : Str → Bool) {isInt : Str → Bool} (W : DiffWorld) (other : List ArgEvent → DiffRun)

theorem valuesOf_absent {given : List (OptSpec × List Str)} {o : OptSpec} (h : ¬ Has given o) : valuesOf given o = [] := by
  unfold valuesOf
  rw [List.filter_eq_nil_iff.2]
  · rfl
  · intro g hg he
    exact h ⟨g, hg, by simpa using he⟩

/-- C140: the order of the options, and how often they are given, does not matter; only the last `-o` counts. -/
theorem C140_order {ps ps' : List ArgPiece} {a b : Str} (h : Compares isInt .classdiff ps a b)
    (h' : Compares isInt .classdiff ps' a b) (hs : ∀ g, g ∈ piecesGiven ps ↔ g ∈ piecesGiven ps')
    (ho : (valuesOf (piecesGiven ps) (spec .value ["-o", "--output"])).getLast? =
      (valuesOf (piecesGiven ps') (spec .value ["-o", "--output"])).getLast?) :
    diffMain negNum isInt W other .classdiff (piecesWords ps) =
      diffMain negNum isInt W other .classdiff (piecesWords ps') := by
  obtain ⟨A, hA⟩ := C140_means h.good
  have hno : ∀ x ∈ patternOpts, x.2 ∉ Tool.classdiff.opts := by decide +kernel
  have hpat : ∀ ps, (∀ p ∈ ps, ArgPiece.Good isInt Tool.classdiff.opts p) → ∀ x ∈ patternOpts,
      valuesOf (piecesGiven ps) x.2 = [] := by
    intro ps hg x hx
    refine valuesOf_absent ?_
    rintro ⟨g, hm, he⟩
    exact hno x hx (he ▸ good_mem hg g hm)
  have hA' : DiffMeans (piecesGiven ps') A := by
    constructor
    · intro name
      rw [hA.flags]
      exact ⟨fun ⟨g, hg, he⟩ => ⟨g, (hs g).1 hg, he⟩, fun ⟨g, hg, he⟩ => ⟨g, (hs g).2 hg, he⟩⟩
    · rw [hA.keys, hpat _ h.good _ (.head _), hpat _ h'.good _ (.head _)]
    · rw [hA.entries, hpat _ h.good _ (.tail _ (.head _)), hpat _ h'.good _ (.tail _ (.head _))]
    · rw [hA.files, hpat _ h.good _ (.tail _ (.tail _ (.head _))), hpat _ h'.good _ (.tail _ (.tail _ (.head _)))]
    · rw [hA.unchanged, has_same hs, has_same hs]
    · rw [hA.ignored, has_same hs, has_same hs]
    · rw [hA.quiet, has_same hs]
    · rw [hA.json, has_same hs]
    · rw [hA.shallow, has_same hs]
    · intro name
      rw [hA.dest, ho]
  have r := C140_run negNum W other h hA
  have r' := C140_run negNum W other h' hA'
  cases hc : classDelta W a b with
  | error e => exact (r.1 e hc).trans (r'.1 e hc).symm
  | ok c => exact (r.2 c hc).unique (r'.2 c hc)

/-- C140: options that only say what is shown and where do not change the exit status. -/
theorem C140_status {ps ps' : List ArgPiece} {a b : Str} (h : Compares isInt .classdiff ps a b)
    (h' : Compares isInt .classdiff ps' a b)
    (hs : ∀ name : String, (∃ g ∈ piecesGiven ps, SetsFlag g name.toList) ↔ ∃ g ∈ piecesGiven ps', SetsFlag g name.toList)
    (ho : ∀ name, W.cannotOpen name = none) :
    (diffMain negNum isInt W other .classdiff (piecesWords ps)).status =
      (diffMain negNum isInt W other .classdiff (piecesWords ps')).status := by
  obtain ⟨A, hA⟩ := C140_means h.good
  obtain ⟨A', hA'⟩ := C140_means h'.good
  have r := C140_run negNum W other h hA
  have r' := C140_run negNum W other h' hA'
  cases hc : classDelta W a b with
  | error e => rw [r.1 e hc, r'.1 e hc]
  | ok c =>
    rw [(r.2 c hc).status fun _ _ => ho _, (r'.2 c hc).status fun _ _ => ho _]
    have : SameFlags A.opts.flags A'.opts.flags := by
      intro name
      exact Bool.eq_iff_iff.2 ((hA.flags name).trans ((hs name).trans (hA'.flags name).symm))
    rw [Change.exitStatus_resp this (classDelta_resp hc)]

/-! ## C141 -/

theorem diffCli_delta {t : DiffTool} (ht : t ≠ .classdiff) (ns : DiffNs) (a b : Str) :
    diffCli W t ns a b = match (deltaOf W t ns.shallow a b).bind Change.check with
      | .error e => .fails e
      | .ok c => finishRun W ns (c.indentNs ns 0) (c.jsonNs ns) (c.statusNs ns) := by
  cases t with
  | classdiff => exact absurd rfl ht
  | jardiff => rfl
  | distdiff => rfl

/-- C141 as stated: jardiff and distdiff end with the exception that reading or comparing raises, or else with the
exit status of the comparison and the report that is asked for. -/
def C141_full : Prop :=
  ∀ (negNum isInt : Str → Bool) (W : DiffWorld) (other : List ArgEvent → DiffRun) (t : DiffTool), t ≠ .classdiff →
  ∀ (ps : List ArgPiece) (a b : Str), Compares isInt t ps a b → ∀ A, DiffMeans (piecesGiven ps) A →
    (∀ e, (deltaOf W t A.shallow a b).bind Change.check = .error e →
      diffMain negNum isInt W other t (piecesWords ps) = ⟨none, .error e⟩) ∧
    (∀ c, (deltaOf W t A.shallow a b).bind Change.check = .ok c →
      RunIs W A A.opts c (diffMain negNum isInt W other t (piecesWords ps)))

/-- The patterns as they are if `--ignore` names an option for patterns: none. -/
structure Cleared (given : List (OptSpec × List Str)) (o o' : DiffOpts) : Prop where
  flags : o'.flags = o.flags
  keys : (∃ g ∈ given, NamesAttr g "ignore_manifest_key".toList) ∧ o'.manifestKeys = [] ∨
    (¬ ∃ g ∈ given, NamesAttr g "ignore_manifest_key".toList) ∧ o'.manifestKeys = o.manifestKeys
  entries : (∃ g ∈ given, NamesAttr g "ignore_jar_entry".toList) ∧ o'.jarEntries = [] ∨
    (¬ ∃ g ∈ given, NamesAttr g "ignore_jar_entry".toList) ∧ o'.jarEntries = o.jarEntries
  files : (∃ g ∈ given, NamesAttr g "ignore_filenames".toList) ∧ o'.filenames = [] ∨
    (¬ ∃ g ∈ given, NamesAttr g "ignore_filenames".toList) ∧ o'.filenames = o.filenames

theorem PatternsAre.cleared {given : List (OptSpec × List Str)} {k : String} {o : OptSpec} {x : Option (List Str)}
    (h : PatternsAre given k o x) {l l' : List Str} (hl : l = valuesOf given o)
    (hc : (∃ g ∈ given, NamesAttr g k.toList) ∧ l' = [] ∨ (¬ ∃ g ∈ given, NamesAttr g k.toList) ∧ l' = l) : l' = x.getD [] := by
  rcases hc with ⟨h1, h2⟩ | ⟨h1, h2⟩
  · rw [h.named h1, h2]; rfl
  · rw [h.given h1, h2, hl]; rfl

theorem NsMeans.sameOpts {given : List (OptSpec × List Str)} {ns : DiffNs} (h : NsMeans given ns) {A : DiffArgs}
    (hA : DiffMeans given A) {o' : DiffOpts} (ho : Cleared given A.opts o') : SameOpts o' ns.opts := by
  refine ⟨?_, ?_, ?_, ?_⟩
  · intro name
    rw [ho.flags]
    exact (h.agree hA).flags name
  · exact h.keys.cleared hA.keys ho.keys
  · exact h.entries.cleared hA.entries ho.entries
  · exact h.files.cleared hA.files ho.files

/-- C141: a pattern after `--ignore` has named its option is an AttributeError. -/
theorem C141_conflict {t : DiffTool} {ps : List ArgPiece} {a b : Str} (h : Compares isInt t ps a b)
    (hc : Conflict (piecesGiven ps)) :
    diffMain negNum isInt W other t (piecesWords ps) = ⟨none, .error .attributeError⟩ := by
  obtain ⟨evs, h1, h2, h3, h4⟩ := diff_namespace negNum h
  rcases h4 with ⟨-, h4⟩ | ⟨h4, -⟩
  · unfold diffMain
    rw [h1]
    simp [h4, DiffRun.fails]
  · exact absurd hc h4

/-- C141, what happens otherwise: the run is as it should be, with the named patterns cleared, or it ends with a
TypeError, and that only if `--ignore` names an option for patterns. -/
theorem C141_exact {t : DiffTool} (ht : t ≠ .classdiff) {ps : List ArgPiece} {a b : Str} (h : Compares isInt t ps a b)
    (hc : ¬ Conflict (piecesGiven ps)) {A : DiffArgs} (hA : DiffMeans (piecesGiven ps) A) {o' : DiffOpts}
    (ho : Cleared (piecesGiven ps) A.opts o') :
    (∀ e, (deltaOf W t A.shallow a b).bind Change.check = .error e →
      diffMain negNum isInt W other t (piecesWords ps) = ⟨none, .error e⟩) ∧
    (∀ c, (deltaOf W t A.shallow a b).bind Change.check = .ok c →
      (¬ Clean (piecesGiven ps) ∧ (diffMain negNum isInt W other t (piecesWords ps)).status = .error .typeError) ∨
      RunIs W A o' c (diffMain negNum isInt W other t (piecesWords ps))) := by
  obtain ⟨evs, h1, h2, h3, h4⟩ := diff_namespace negNum h
  rcases h4 with ⟨h4, -⟩ | ⟨-, ns, h4, hn⟩
  · exact absurd h4 hc
  have hag := hn.agree hA
  have he : diffMain negNum isInt W other t (piecesWords ps) = diffCli W t ns a b := by
    unfold diffMain
    rw [h1]
    simp [h4, h3, h2]
  rw [he, diffCli_delta W ht, ← hag.shallow]
  constructor
  · intro e hd
    rw [hd]
    rfl
  · intro c hd
    have hr := delta_resp W t _ a b hd
    rw [hd]
    rcases finish_or W ns c with ⟨hp, hf⟩ | hf
    · refine .inl ⟨fun hcl => ?_, hf⟩
      exact (hcl.some hn).1 hp
    · exact .inr (hf.congr hag.quiet hag.json hag.shows hag.dest (hn.sameOpts hA ho) hr)

theorem Clean.cleared {given : List (OptSpec × List Str)} (h : Clean given) (o : DiffOpts) : Cleared given o o := by
  refine ⟨rfl, .inr ⟨?_, rfl⟩, .inr ⟨?_, rfl⟩, .inr ⟨?_, rfl⟩⟩
  · exact fun ⟨g, hg, he⟩ => h g hg ("ignore_manifest_key", _) (.head _) he
  · exact fun ⟨g, hg, he⟩ => h g hg ("ignore_jar_entry", _) (.tail _ (.head _)) he
  · exact fun ⟨g, hg, he⟩ => h g hg ("ignore_filenames", _) (.tail _ (.tail _ (.head _))) he

/-- C141 if `--ignore` names no option for patterns. -/
theorem C141_partial {t : DiffTool} (ht : t ≠ .classdiff) {ps : List ArgPiece} {a b : Str} (h : Compares isInt t ps a b)
    (hc : Clean (piecesGiven ps)) {A : DiffArgs} (hA : DiffMeans (piecesGiven ps) A) :
    (∀ e, (deltaOf W t A.shallow a b).bind Change.check = .error e →
      diffMain negNum isInt W other t (piecesWords ps) = ⟨none, .error e⟩) ∧
    (∀ c, (deltaOf W t A.shallow a b).bind Change.check = .ok c →
      RunIs W A A.opts c (diffMain negNum isInt W other t (piecesWords ps))) := by
  obtain ⟨h1, h2⟩ := C141_exact negNum W other ht h hc.noConflict hA (hc.cleared A.opts)
  refine ⟨h1, fun c hd => ?_⟩
  rcases h2 c hd with ⟨h3, -⟩ | h3
  · exact absurd hc h3
  · exact h3

/-- C141: the order of the options does not matter then, except among `-o` and among the patterns for one option. -/
theorem C141_order {t : DiffTool} (ht : t ≠ .classdiff) {ps ps' : List ArgPiece} {a b : Str}
    (h : Compares isInt t ps a b) (h' : Compares isInt t ps' a b) (hc : Clean (piecesGiven ps))
    (hs : ∀ g, g ∈ piecesGiven ps ↔ g ∈ piecesGiven ps')
    (ho : ∀ o, o = spec .value ["-o", "--output"] ∨ (∃ x ∈ patternOpts, o = x.2) →
      valuesOf (piecesGiven ps) o = valuesOf (piecesGiven ps') o) :
    diffMain negNum isInt W other t (piecesWords ps) = diffMain negNum isInt W other t (piecesWords ps') := by
  obtain ⟨A, hA⟩ := C140_means h.good
  have hc' : Clean (piecesGiven ps') := fun g hg => hc g ((hs g).2 hg)
  have r := C141_partial negNum W other ht h hc hA
  have r' := C141_partial negNum W other ht h' hc' (hA.same hs ho)
  cases hd : (deltaOf W t A.shallow a b).bind Change.check with
  | error e => exact (r.1 e hd).trans (r'.1 e hd).symm
  | ok c => exact (r.2 c hd).unique (r'.2 c hd)
end

/-! ## Examples -/

/-- Two class files, two archives and two directories, each `a` and `b`, and a file that cannot be written. -/
def demoWorld : DiffWorld :=
  { E := demoDist, cls := readExample,
    jar := fun n => .ok (zipOf false [("x".toList, if n = "a".toList then [1] else [2])]),
    dir := fun n => demoTree (if n = "a".toList then [97] else [98]) [1] 0,
    cannotOpen := fun n => if n = "no".toList then some (.other "OSError") else none }

/-- The run with these words. -/
def demoRun (t : DiffTool) (words : List String) : DiffRun :=
  diffMain (fun _ => false) (fun _ => false) demoWorld (fun _ => .fails .keyError) t (words.map String.toList)

def ignoreJarEntry : List ArgPiece :=
  [.options [(spec .value ["--ignore"], ["jar-entry".toList])] ["--ignore".toList, "jar-entry".toList],
   .file "a".toList, .file "b".toList]

theorem ignoreJarEntry_compares : Compares (fun _ => false) .jardiff ignoreJarEntry "a".toList "b".toList := by
  constructor
  · intro p hp
    simp only [ignoreJarEntry, List.mem_cons, List.not_mem_nil, or_false] at hp
    rcases hp with rfl | rfl | rfl
    · refine ⟨.value ?_ rfl ?_, ?_⟩
      · exact ⟨by decide +kernel, by decide⟩
      · exact .inl (by decide)
      · intro a ha
        simp only [List.mem_cons, List.not_mem_nil, or_false] at ha
        subst ha
        exact ⟨by decide, by intro h; simp [spec] at h⟩
    · exact .inl (by decide)
    · exact .inl (by decide)
  · exact ⟨[_], ["a".toList, "b".toList], [], rfl, rfl, rfl, rfl⟩
  · rfl
  · rintro ⟨g, hg, he⟩
    simp only [ignoreJarEntry, piecesGiven, List.flatMap_cons, ArgPiece.given, List.flatMap_nil, List.append_nil,
      List.mem_cons, List.not_mem_nil, or_false] at hg
    subst hg
    exact absurd he (by decide)

/-- `jardiff --ignore jar-entry a b` raises a TypeError. -/
theorem C141_full_fails : ¬ C141_full := by
  intro h
  obtain ⟨A, hA⟩ := C140_means ignoreJarEntry_compares.good
  have h1 := (h (fun _ => false) (fun _ => false) demoWorld (fun _ => .fails .keyError) .jardiff (by simp) _ _ _
    ignoreJarEntry_compares A hA).2
  have h2 : (diffMain (fun _ => false) (fun _ => false) demoWorld (fun _ => .fails .keyError) .jardiff
      (piecesWords ignoreJarEntry)).status = .error .typeError := by decide +kernel
  have h3 : ((deltaOf demoWorld .jardiff A.shallow "a".toList "b".toList).bind Change.check).toBool = true := by
    show ((deltaOf demoWorld .jardiff false "a".toList "b".toList).bind Change.check).toBool = true
    decide +kernel
  cases hd : (deltaOf demoWorld .jardiff A.shallow "a".toList "b".toList).bind Change.check with
  | error e => rw [hd] at h3; simp [Except.toBool] at h3
  | ok c =>
    have hr := h1 c hd
    have hdest : A.dest = none := by
      cases hx : A.dest with
      | none => rfl
      | some name =>
        have := ((hA.dest name).1 hx).2
        simp [valuesOf, ignoreJarEntry, piecesGiven, ArgPiece.given, spec] at this
    have := hr.status (by rw [hdest]; simp)
    rw [h2] at this
    simp at this

/-- Where and which text is printed, and the exit status. -/
def DiffRun.seen (r : DiffRun) : Option (Option Str × Option Str) × Res Nat :=
  (r.printed.map fun p => (p.1, match p.2 with | .text s => some s | .json _ => none), r.status)

set_option synthInstance.maxSize 1000

/-- A comparison that is quiet, one that is written, one as JSON and one that cannot be written. -/
example : (demoRun .classdiff ["-q", "a", "b"]).seen = (none, .ok 1) ∧
    (demoRun .classdiff ["a", "b", "--ignore-version-up", "-o", "out"]).seen =
      (some (some "out".toList, some []), .ok 0) ∧
    (demoRun .classdiff ["a", "b", "-j", "-o", "out", "-o="]).seen = (some (none, none), .ok 1) ∧
    (demoRun .classdiff ["a", "b", "-j", "-o", "no"]).seen = (none, .error (.other "OSError")) := by
  decide +kernel

example : (demoRun .jardiff ["-q", "a", "b"]).seen = (none, .ok 1) ∧
    (demoRun .jardiff ["a", "b", "--ignore-jar-entry", "x"]).seen = (some (none, some []), .ok 0) ∧
    (demoRun .jardiff ["--ignore", "jar-entry", "a", "b"]).status = .error .typeError ∧
    (demoRun .jardiff ["--ignore", "jar-entry", "a", "b", "--ignore-jar-entry", "x"]).seen =
      (none, .error .attributeError) := by
  decide +kernel

example : (demoRun .distdiff ["-q", "a", "b"]).seen = (none, .ok 1) ∧
    (demoRun .distdiff ["-q", "a", "b", "--shallow"]).seen = (none, .ok 0) ∧
    (demoRun .distdiff ["-q", "a", "b", "--ignore-filenames", "*.txt"]).seen = (none, .ok 0) := by
  decide +kernel

end Javatools
