import Verif.Proofs.Paths
import Verif.Props.JarDiff
/-
C110-C118: report formats, report files, links between reports, escaping.
-/
namespace Javatools

open Spec

/-! ### C110: the formats named by `--report` -/

/-- The names of a format. -/
def Named (f : Fmt) (x : Str) : Prop :=
  match f with
  | .json => x = "json".toList
  | .text => x = "txt".toList ∨ x = "text".toList
  | .html => x = "htm".toList ∨ x = "html".toList

/-- `x` is one of the parts of a list that is separated by commas. -/
def CommaPart (v x : Str) : Prop :=
  ',' ∉ x ∧ ∃ pre post, v = pre ++ x ++ post ∧ (pre = [] ∨ pre.getLast? = some ',') ∧
    (post = [] ∨ post.head? = some ',')

theorem commaPart_cons {a b x : Str} (ha : ',' ∉ a) :
    CommaPart (a ++ ',' :: b) x ↔ x = a ∨ CommaPart b x := by
  constructor
  · rintro ⟨hx, pre, post, h, h1, h2⟩
    rcases List.eq_nil_or_concat pre with rfl | ⟨pre', d, rfl⟩
    · left
      rcases h2 with rfl | h2
      · have : ',' ∈ a ++ ',' :: b := by simp
        rw [h] at this
        simp only [List.nil_append, List.append_nil] at this
        exact absurd this hx
      · cases post with
        | nil => simp at h2
        | cons d post =>
          simp only [List.head?_cons, Option.some.injEq] at h2
          subst h2
          rw [List.nil_append] at h
          rcases List.append_eq_append_iff.1 h with ⟨t, rfl, ht⟩ | ⟨t, rfl, ht⟩
          · cases t with
            | nil => simp
            | cons y t =>
              simp only [List.cons_append, List.cons.injEq] at ht
              exact absurd (by simp [← ht.1]) hx
          · cases t with
            | nil => simp
            | cons y t =>
              simp only [List.cons_append, List.cons.injEq] at ht
              exact absurd (by simp [← ht.1]) ha
    · right
      have hd : d = ',' := by
        rcases h1 with h1 | h1
        · simp at h1
        · simpa using h1
      subst hd
      rw [List.concat_eq_append, List.append_assoc, List.append_assoc, List.singleton_append] at h
      rcases List.append_eq_append_iff.1 h with ⟨t, rfl, ht⟩ | ⟨t, rfl, ht⟩
      · cases t with
        | nil =>
          simp only [List.nil_append, List.cons.injEq, true_and] at ht
          exact ⟨hx, [], post, by rw [ht]; rfl, .inl rfl, h2⟩
        | cons y t =>
          simp only [List.cons_append, List.cons.injEq] at ht
          exact ⟨hx, t ++ [','], post, by rw [ht.2]; simp, .inr (by simp), h2⟩
      · cases t with
        | nil =>
          simp only [List.nil_append, List.cons.injEq, true_and] at ht
          exact ⟨hx, [], post, by rw [← ht]; rfl, .inl rfl, h2⟩
        | cons y t =>
          simp only [List.cons_append, List.cons.injEq] at ht
          exact absurd (by simp [← ht.1]) ha
  · rintro (rfl | ⟨hx, pre, post, rfl, h1, h2⟩)
    · exact ⟨ha, [], ',' :: b, rfl, .inl rfl, .inr rfl⟩
    · refine ⟨hx, a ++ ',' :: pre, post, by simp, .inr ?_, h2⟩
      rcases h1 with rfl | h1
      · simp
      · rw [List.getLast?_append, List.getLast?_cons, h1]; rfl

theorem commaPart_no {v x : Str} (hv : ',' ∉ v) : CommaPart v x ↔ x = v := by
  constructor
  · rintro ⟨_, pre, post, rfl, h1, h2⟩
    simp only [List.mem_append, not_or] at hv
    have e1 : pre = [] := by
      rcases h1 with h1 | h1
      · exact h1
      · exact absurd (List.mem_of_getLast? h1) hv.1.1
    have e2 : post = [] := by
      rcases h2 with h2 | h2
      · exact h2
      · exact absurd (List.mem_of_head? h2) hv.2
    simp [e1, e2]
  · rintro rfl
    exact ⟨hv, [], [], by simp, .inl rfl, .inl rfl⟩

theorem first_comma {v : Str} (h : ',' ∈ v) : ∃ a b, v = a ++ ',' :: b ∧ ',' ∉ a := by
  induction v with
  | nil => simp at h
  | cons c v ih =>
    by_cases hc : c = ','
    · exact ⟨[], v, by rw [hc]; rfl, by simp⟩
    · obtain ⟨a, b, rfl, ha⟩ := ih (by
        rcases List.mem_cons.1 h with e | e
        · exact absurd e.symm hc
        · exact e)
      refine ⟨c :: a, b, rfl, ?_⟩
      simp only [List.mem_cons, not_or]
      exact ⟨fun e => hc e.symm, ha⟩

theorem exists_cons {α : Type} {p : α → Prop} {a : α} {l : List α} :
    (∃ x, x ∈ a :: l ∧ p x) ↔ p a ∨ ∃ x, x ∈ l ∧ p x := by
  simp

theorem mem_splitAll (v x : Str) : x ∈ splitAll ',' v ↔ CommaPart v x := by
  induction hn : v.length using Nat.strongRecOn generalizing v with
  | _ n ih =>
    by_cases hv : ',' ∈ v
    · obtain ⟨a, b, rfl, ha⟩ := first_comma hv
      rw [splitAll_cons ha, List.mem_cons, commaPart_cons ha,
        ih b.length (by rw [← hn]; simp; omega) b rfl]
    · rw [splitAll_no hv, commaPart_no hv, List.mem_singleton]

theorem byName_iff (x : Str) (f : Fmt) : Fmt.byName x = some f ↔ Named f x := by
  unfold Fmt.byName
  have h1 : ("txt".toList : Str) ≠ "json".toList := by decide
  have h2 : ("text".toList : Str) ≠ "json".toList := by decide
  have h3 : ("htm".toList : Str) ≠ "json".toList := by decide
  have h4 : ("html".toList : Str) ≠ "json".toList := by decide
  have h5 : ("htm".toList : Str) ≠ "txt".toList := by decide
  have h6 : ("htm".toList : Str) ≠ "text".toList := by decide
  have h7 : ("html".toList : Str) ≠ "txt".toList := by decide
  have h8 : ("html".toList : Str) ≠ "text".toList := by decide
  cases f <;> simp only [Named] <;> grind

theorem mem_addFormatsByName (ns : List Str) (r : Reporter) (f : Fmt) :
    f ∈ (r.addFormatsByName ns).formats ↔ f ∈ r.formats ∨ ∃ n ∈ ns, Named f n := by
  induction ns generalizing r with
  | nil => simp [Reporter.addFormatsByName]
  | cons n ns ih =>
    simp only [Reporter.addFormatsByName, exists_cons]
    cases h : Fmt.byName n with
    | none =>
      have : ¬ Named f n := fun e => by rw [(byName_iff n f).2 e] at h; cases h
      simp only [ih, this, false_or]
    | some g =>
      have : Named f n ↔ f = g := by
        rw [← byName_iff, h, Option.some.injEq]
        exact eq_comm
      simp only [ih, this]
      have : f ∈ (r.addFormat g).formats ↔ f ∈ r.formats ∨ f = g := by
        unfold Reporter.addFormat
        split
        · rename_i hg
          constructor
          · exact .inl
          · rintro (e | rfl)
            · exact e
            · exact hg
        · simp
      rw [this, or_assoc]

theorem nodup_addFormat {r : Reporter} (h : r.formats.Nodup) (f : Fmt) : (r.addFormat f).formats.Nodup := by
  unfold Reporter.addFormat
  split
  · exact h
  · rename_i hf
    refine List.nodup_append.2 ⟨h, by simp, ?_⟩
    intro a ha b hb
    rw [List.mem_singleton] at hb
    subst hb
    exact fun e => hf (e ▸ ha)

theorem nodup_addFormatsByName (ns : List Str) {r : Reporter} (h : r.formats.Nodup) :
    (r.addFormatsByName ns).formats.Nodup := by
  induction ns generalizing r with
  | nil => exact h
  | cons n ns ih =>
    simp only [Reporter.addFormatsByName]
    split
    · exact ih (nodup_addFormat h _)
    · exact ih h

theorem mem_optReport (vs : List Str) (acc : List Str) (x : Str) (hx : x ≠ []) :
    x ∈ vs.foldl optReport acc ↔ x ∈ acc ∨ ∃ v ∈ vs, CommaPart v x := by
  induction vs generalizing acc with
  | nil => simp
  | cons v vs ih =>
    rw [List.foldl_cons, ih]
    have : x ∈ optReport acc v ↔ x ∈ acc ∨ CommaPart v x := by
      unfold optReport
      split
      · simp [mem_splitAll, hx]
      · rename_i hv
        simp [commaPart_no hv]
    rw [this, or_assoc, exists_cons]

theorem named_ne_nil {f : Fmt} {x : Str} (h : Named f x) : x ≠ [] := by
  rintro rfl
  cases f <;> simp [Named] at h

/-- C110: a comparison writes a report in a format exactly when one of the `--report` options names
the format in its comma-separated list, and each format is there once. -/
theorem C110_formats (basedir entry : Str) (values : List Str) :
    let r := Reporter.addFormatsByName { basedir := basedir, entry := entry } (values.foldl optReport [])
    r.formats.Nodup ∧ ∀ f, f ∈ r.formats ↔ ∃ v ∈ values, ∃ x, CommaPart v x ∧ Named f x := by
  refine ⟨nodup_addFormatsByName _ (by simp), fun f => ?_⟩
  rw [mem_addFormatsByName]
  simp only [List.not_mem_nil, false_or]
  constructor
  · rintro ⟨n, hn, hf⟩
    rw [mem_optReport _ _ _ (named_ne_nil hf)] at hn
    rcases hn with hn | ⟨v, hv, h⟩
    · simp at hn
    · exact ⟨v, hv, n, h, hf⟩
  · rintro ⟨v, hv, n, h, hf⟩
    exact ⟨n, (mem_optReport _ _ _ (named_ne_nil hf)).2 (.inr ⟨v, hv, h⟩), hf⟩

example : (Reporter.addFormatsByName { basedir := [], entry := [] }
    (["html,,json".toList, "txt".toList, "htm, xml".toList].foldl optReport [])).formats =
    [.html, .json, .text] := by decide

/-! ### C111: the life of a reporter -/

/-- C111 in full: whatever was called before, `run` writes a report in each of the formats that were
added, once. -/
def C111_full : Prop := ∀ (cwd : Str) (r : Reporter) (calls : List ReporterCall),
  r.instances = none → r.formats.Nodup → (∀ c ∈ r.crumbs, c.1 ≠ []) →
  ∃ out r', (calls.foldl (Reporter.call cwd) r).run cwd = .ok (out, r') ∧
    (out.map fun p => p.1.fmt).Nodup ∧
    ∀ f, f ∈ (out.map fun p => p.1.fmt) ↔ f ∈ r.formats ∨ .add f ∈ calls

/-- A format added between `setup` and `run` is not written. -/
theorem C111_full_fails : ¬ C111_full := by
  intro h
  obtain ⟨out, r', h1, _, h3⟩ := h [] { basedir := [], entry := [] } [.setup, .add .json] rfl
    (by simp) (by simp)
  have : out = [] := by
    have e : (([ReporterCall.setup, .add .json].foldl (Reporter.call []) { basedir := [], entry := [] }).run []) =
      .ok ([], { basedir := [], entry := [], formats := [.json] }) := by decide
    rw [e] at h1
    cases h1
    rfl
  subst this
  exact absurd ((h3 .json).2 (.inr (by simp))) (by simp)

/-- Every format that is added after a `setup` is added after the `run` or `clear` that ends it. -/
def AddedInTime (calls : List ReporterCall) : Prop :=
  ∀ a b c f, calls = a ++ .setup :: b ++ .add f :: c → .run ∈ b ∨ .clear ∈ b

theorem relativeCrumbs_ok (cwd basedir : Str) (cs : List (Str × Str)) (h : ∀ c ∈ cs, c.1 ≠ []) :
    ∃ ps, Reporter.relativeCrumbs cwd basedir cs = .ok ps := by
  induction cs with
  | nil => exact ⟨_, rfl⟩
  | cons c cs ih =>
    obtain ⟨b, e⟩ := c
    obtain ⟨p, hp⟩ := relpath_ok cwd (start := basedir) (h (b, e) (by simp))
    obtain ⟨ps, hps⟩ := ih fun c hc => h c (by simp [hc])
    exact ⟨(p, e) :: ps, by simp only [Reporter.relativeCrumbs]; rw [hp, hps]⟩

/-- What no call changes, and what `add` changes. -/
structure Kept (r r' : Reporter) : Prop where
  basedir : r'.basedir = r.basedir
  entry : r'.entry = r.entry
  crumbs : r'.crumbs = r.crumbs

theorem setup_eq (cwd : Str) (r : Reporter) (hc : ∀ c ∈ r.crumbs, c.1 ≠ []) :
    ∃ cs, Reporter.relativeCrumbs cwd r.basedir r.crumbs = .ok cs ∧
      (r.setup cwd = .ok r ∧ r.instances ≠ none ∨
       r.setup cwd = .ok { r with instances := some (r.formats.map fun f => ⟨f, r.basedir, cs⟩) }) := by
  obtain ⟨cs, h⟩ := relativeCrumbs_ok cwd r.basedir r.crumbs hc
  refine ⟨cs, h, ?_⟩
  unfold Reporter.setup
  split
  · rename_i e
    exact .inl ⟨rfl, by rw [e]; simp⟩
  · rw [h]; exact .inr rfl

theorem run_eq (cwd : Str) (r : Reporter) (hc : ∀ c ∈ r.crumbs, c.1 ≠ []) :
    ∃ out, r.run cwd = .ok (out, { r with instances := none }) := by
  unfold Reporter.run
  cases h : r.instances with
  | some is => exact ⟨_, rfl⟩
  | none =>
    obtain ⟨cs, _, ⟨_, h2⟩ | h2⟩ := setup_eq cwd r hc
    · exact absurd h h2
    · simp only [h2]
      exact ⟨_, rfl⟩

theorem call_kept (cwd : Str) (r : Reporter) (c : ReporterCall) (hc : ∀ c ∈ r.crumbs, c.1 ≠ []) :
    Kept r (r.call cwd c) ∧ (∀ f, f ∈ (r.call cwd c).formats ↔ f ∈ r.formats ∨ c = .add f) ∧
      (r.formats.Nodup → (r.call cwd c).formats.Nodup) := by
  cases c with
  | add g =>
    refine ⟨?_, ?_, fun h => nodup_addFormat h g⟩
    · simp only [Reporter.call, Reporter.addFormat]
      split <;> exact ⟨rfl, rfl, rfl⟩
    · intro f
      simp only [Reporter.call, Reporter.addFormat, ReporterCall.add.injEq]
      split
      · rename_i hg
        constructor
        · exact .inl
        · rintro (e | rfl)
          · exact e
          · exact hg
      · simp [eq_comm]
  | setup =>
    obtain ⟨cs, _, ⟨h2, _⟩ | h2⟩ := setup_eq cwd r hc
    · simp only [Reporter.call, h2]
      exact ⟨⟨rfl, rfl, rfl⟩, by simp, id⟩
    · simp only [Reporter.call, h2]
      exact ⟨⟨rfl, rfl, rfl⟩, by simp, id⟩
  | run =>
    obtain ⟨out, h⟩ := run_eq cwd r hc
    simp only [Reporter.call, h]
    exact ⟨⟨rfl, rfl, rfl⟩, by simp, id⟩
  | clear => exact ⟨⟨rfl, rfl, rfl⟩, by simp [Reporter.call, Reporter.clear], id⟩

theorem calls_kept (cwd : Str) (r : Reporter) (calls : List ReporterCall)
    (hc : ∀ c ∈ r.crumbs, c.1 ≠ []) :
    Kept r (calls.foldl (Reporter.call cwd) r) ∧
      (∀ f, f ∈ (calls.foldl (Reporter.call cwd) r).formats ↔ f ∈ r.formats ∨ .add f ∈ calls) ∧
      (r.formats.Nodup → (calls.foldl (Reporter.call cwd) r).formats.Nodup) := by
  induction calls generalizing r with
  | nil => exact ⟨⟨rfl, rfl, rfl⟩, by simp, id⟩
  | cons c calls ih =>
    obtain ⟨k, k2, k3⟩ := call_kept cwd r c hc
    obtain ⟨i, i2, i3⟩ := ih (r.call cwd c) (by rw [k.crumbs]; exact hc)
    refine ⟨⟨i.basedir.trans k.basedir, i.entry.trans k.entry, i.crumbs.trans k.crumbs⟩, ?_,
      fun h => i3 (k3 h)⟩
    intro f
    rw [List.foldl_cons, i2, k2, List.mem_cons, or_assoc, eq_comm]

/-- Every `setup` is ended. -/
def SetupsEnded (calls : List ReporterCall) : Prop :=
  ∀ a b, calls = a ++ .setup :: b → .run ∈ b ∨ .clear ∈ b

theorem ended_none (cwd : Str) (r : Reporter) (calls : List ReporterCall)
    (hc : ∀ c ∈ r.crumbs, c.1 ≠ []) (h0 : r.instances = none) (h : SetupsEnded calls) :
    (calls.foldl (Reporter.call cwd) r).instances = none := by
  induction hn : calls.length generalizing calls with
  | zero => rw [List.eq_nil_of_length_eq_zero hn]; exact h0
  | succ n ih =>
    rcases List.eq_nil_or_concat calls with rfl | ⟨cs, c, rfl⟩
    · simp at hn
    · rw [List.concat_eq_append] at h hn ⊢
      rw [List.foldl_append]
      have hk := (calls_kept cwd r cs hc).1
      generalize hr : cs.foldl (Reporter.call cwd) r = r1 at hk
      have hc1 : ∀ c ∈ r1.crumbs, c.1 ≠ [] := by rw [hk.crumbs]; exact hc
      simp only [List.foldl_cons, List.foldl_nil]
      cases c with
      | setup => exact absurd (h cs [] rfl) (by simp)
      | run =>
        obtain ⟨out, e⟩ := run_eq cwd r1 hc1
        simp only [Reporter.call, e]
      | clear => rfl
      | add f =>
        have : r1.instances = none := by
          rw [← hr]
          refine ih cs ?_ (by simpa using hn)
          rintro a b rfl
          have := h a (b ++ [.add f]) (by simp)
          simpa using this
        simp only [Reporter.call, Reporter.addFormat]
        split <;> exact this

/-- The instances are those of the formats. -/
theorem inTime_instances (cwd : Str) (r : Reporter) (calls : List ReporterCall)
    (hc : ∀ c ∈ r.crumbs, c.1 ≠ []) (h0 : r.instances = none) (h : AddedInTime calls) :
    ∀ is, (calls.foldl (Reporter.call cwd) r).instances = some is →
      is.map (fun i => i.fmt) = (calls.foldl (Reporter.call cwd) r).formats := by
  induction hn : calls.length generalizing calls with
  | zero =>
    rw [List.eq_nil_of_length_eq_zero hn]
    intro is his
    rw [List.foldl_nil, h0] at his
    cases his
  | succ n ih =>
    rcases List.eq_nil_or_concat calls with rfl | ⟨cs, c, rfl⟩
    · simp at hn
    · rw [List.concat_eq_append] at h hn ⊢
      have hcs : AddedInTime cs := by
        rintro a b c' f rfl
        exact h a b (c' ++ [c]) f (by simp)
      have ih' := ih cs hcs (by simpa using hn)
      have hend : ∀ f, c = .add f → SetupsEnded cs := by
        rintro f rfl a b rfl
        exact h a b [] f (by simp)
      have hnone := fun f e => ended_none cwd r cs hc h0 (hend f e)
      rw [List.foldl_append]
      have hk := (calls_kept cwd r cs hc).1
      generalize cs.foldl (Reporter.call cwd) r = r1 at hk ih' hnone
      have hc1 : ∀ c ∈ r1.crumbs, c.1 ≠ [] := by rw [hk.crumbs]; exact hc
      simp only [List.foldl_cons, List.foldl_nil]
      intro is his
      cases c with
      | setup =>
        obtain ⟨ps, _, ⟨h2, _⟩ | h2⟩ := setup_eq cwd r1 hc1
        · simp only [Reporter.call, h2] at his ⊢
          exact ih' is his
        · simp only [Reporter.call, h2, Option.some.injEq] at his ⊢
          subst his
          rw [List.map_map]
          exact List.map_id _
      | run =>
        obtain ⟨out, e⟩ := run_eq cwd r1 hc1
        simp only [Reporter.call, e] at his
        cases his
      | clear => cases his
      | add f =>
        have := hnone f rfl
        simp only [Reporter.call, Reporter.addFormat] at his
        split at his
        · rw [this] at his; cases his
        · rw [this] at his; cases his

/-- C111, when no format is added between a `setup` and the `run` or `clear` that ends it. What is
missing: the formats that are. -/
theorem C111_partial (cwd : Str) (r : Reporter) (calls : List ReporterCall) (h0 : r.instances = none)
    (hf : r.formats.Nodup) (hc : ∀ c ∈ r.crumbs, c.1 ≠ []) (h : AddedInTime calls) :
    ∃ out r', (calls.foldl (Reporter.call cwd) r).run cwd = .ok (out, r') ∧
      (out.map fun p => p.1.fmt).Nodup ∧
      ∀ f, f ∈ (out.map fun p => p.1.fmt) ↔ f ∈ r.formats ∨ .add f ∈ calls := by
  have hi := inTime_instances cwd r calls hc h0 h
  obtain ⟨hk, hm, hnd⟩ := calls_kept cwd r calls hc
  generalize calls.foldl (Reporter.call cwd) r = r1 at hk hm hnd hi
  have hc1 : ∀ c ∈ r1.crumbs, c.1 ≠ [] := by rw [hk.crumbs]; exact hc
  have key : ∃ out r', r1.run cwd = .ok (out, r') ∧ (out.map fun p => p.1.fmt) = r1.formats := by
    unfold Reporter.run
    cases e : r1.instances with
    | some is =>
      refine ⟨_, _, rfl, ?_⟩
      rw [List.map_map, ← hi is e, e]
      rfl
    | none =>
      obtain ⟨cs, _, ⟨_, h2⟩ | h2⟩ := setup_eq cwd r1 hc1
      · exact absurd e h2
      · simp only [h2]
        refine ⟨_, _, rfl, ?_⟩
        simp only [List.map_map, Option.getD_some]
        exact List.map_id _
  obtain ⟨out, r', h1, h2⟩ := key
  exact ⟨out, r', h1, by rw [h2]; exact hnd hf, by rw [h2]; exact hm⟩

/-- Exactly when it happens: formats that are added while a `setup` is pending wait for the next
`run`. -/
theorem C111_pending (cwd : Str) (r : Reporter) (is : List FormatInst) (fs : List Fmt)
    (hi : r.instances = some is) :
    ∃ out r', (fs.foldl Reporter.addFormat r).run cwd = .ok (out, r') ∧ out.map (fun p => p.1) = is ∧
      r'.instances = none ∧ (∀ f, f ∈ r'.formats ↔ f ∈ r.formats ∨ f ∈ fs) := by
  have : ∀ (fs : List Fmt) (r : Reporter), r.instances = some is →
      (fs.foldl Reporter.addFormat r).instances = some is ∧
      ∀ f, f ∈ (fs.foldl Reporter.addFormat r).formats ↔ f ∈ r.formats ∨ f ∈ fs := by
    intro fs
    induction fs with
    | nil => intro r hr; exact ⟨hr, by simp⟩
    | cons g fs ih =>
      intro r hr
      have h1 : (r.addFormat g).instances = some is := by
        unfold Reporter.addFormat; split <;> exact hr
      obtain ⟨a, b⟩ := ih _ h1
      refine ⟨a, fun f => ?_⟩
      rw [List.foldl_cons, b, List.mem_cons, ← or_assoc]
      have : f ∈ (r.addFormat g).formats ↔ f ∈ r.formats ∨ f = g := by
        unfold Reporter.addFormat
        split
        · rename_i hg
          constructor
          · exact .inl
          · rintro (e | rfl)
            · exact e
            · exact hg
        · simp
      rw [this]
  obtain ⟨h1, h2⟩ := this fs r hi
  generalize fs.foldl Reporter.addFormat r = r1 at h1 h2
  refine ⟨(r1.instances.getD []).map (fun f => (f, f.run r1.entry)), r1.clear,
    by unfold Reporter.run; simp only [h1], ?_, rfl, h2⟩
  rw [List.map_map, h1]
  exact List.map_id _

example : AddedInTime [.add .json, .setup, .run, .add .html, .setup] := by
  intro a b c f h
  rcases a with _ | ⟨_, _ | ⟨_, _ | ⟨_, _ | ⟨_, _ | ⟨_, a⟩⟩⟩⟩⟩ <;> simp at h
  · rcases b with _ | ⟨_, b⟩ <;> simp at h
    left; simp [← h.2.1]

/-! ### C112: reports stay in the report directory -/

/-- A path that is relative and never goes up. -/
def Inside (p : Str) : Prop := p.head? ≠ some '/' ∧ ['.', '.'] ∉ splitAll '/' p

theorem foldl_inside (here : Place) (cs : List Str) (h : ['.', '.'] ∉ cs) :
    cs.foldl step here = here ++ cs.foldl step [] := by
  have key : ∀ (cs : List Str) (a b : Place), ['.', '.'] ∉ cs →
      cs.foldl step (a ++ b) = a ++ cs.foldl step b := by
    intro cs
    induction cs with
    | nil => intros; rfl
    | cons c cs ih =>
      intro a b h
      simp only [List.mem_cons, not_or] at h
      have : step (a ++ b) c = a ++ step b c := by
        unfold step
        split
        · rfl
        · rw [if_neg (fun e => h.1 e.symm), if_neg (fun e => h.1 e.symm), List.append_assoc]
      rw [List.foldl_cons, List.foldl_cons, this, ih _ _ h.2]
  have := key cs here [] h
  rwa [List.append_nil] at this

theorem place_inside (here : Place) {p : Str} (h : Inside p) : place here p = here ++ place [] p := by
  unfold place
  rw [if_neg h.1, if_neg h.1, foldl_inside _ _ h.2]

theorem extension_length (f : Fmt) : f.extension.length = 5 := by cases f <;> decide

theorem extension_noslash (f : Fmt) : '/' ∉ f.extension := by cases f <;> decide

theorem extension_inj {f g : Fmt} (h : f.extension = g.extension) : f = g := by
  cases f <;> cases g <;> first | rfl | exact absurd h (by decide)

/-- The name of a report: not empty, one name. -/
def ReportName (e : Str) : Prop := e ≠ [] ∧ '/' ∉ e

theorem reportName_class : ReportName "JavaClassReport".toList := ⟨by decide, by decide⟩

theorem reportName_jar : ReportName "JarReport".toList := ⟨by decide, by decide⟩

theorem reportFile_name {e : Str} (h : ReportName e) (f : Fmt) : IsName (e ++ f.extension) := by
  have hl : (e ++ f.extension).length > 5 := by
    have := List.length_pos_iff.2 h.1
    rw [List.length_append, extension_length]; omega
  refine ⟨?_, ?_, ?_, ?_⟩
  · intro x; rw [x] at hl; simp at hl
  · simp [h.2, extension_noslash]
  · intro x; rw [x] at hl; simp at hl
  · intro x; rw [x] at hl; simp at hl

theorem place_name (here : Place) {n : Str} (h : IsName n) : place here n = here ++ [n] := by
  have := place_slashed here (q := [n]) (by simp) (by intro x hx; rw [List.mem_singleton] at hx; exact hx ▸ h)
  simpa [slashed] using this

theorem files_eq {r : Reporter} (h : ReportName r.entry) :
    r.files = r.formats.map fun f =>
      pathJoin (if r.basedir = [] then "./".toList else r.basedir) (r.entry ++ f.extension) := by
  unfold Reporter.files
  induction r.formats with
  | nil => rfl
  | cons f fs ih =>
    rw [List.filterMap_cons, List.map_cons, ← ih]
    simp [FormatInst.run, h.1]

theorem place_file (here : Place) {r : Reporter} (h : ReportName r.entry) (f : Fmt) :
    place here (pathJoin (if r.basedir = [] then "./".toList else r.basedir) (r.entry ++ f.extension)) =
      place here r.basedir ++ [r.entry ++ f.extension] := by
  rw [place_join, place_name _ (reportFile_name h f)]
  congr 1
  split
  · rename_i e
    rw [e]
    rfl
  · rfl

/-- Where the reports of a reporter are. -/
theorem C112_where (here : Place) {r : Reporter} (h : ReportName r.entry) :
    r.files.map (place here) = r.formats.map fun f => place here r.basedir ++ [r.entry ++ f.extension] := by
  rw [files_eq h, List.map_map]
  apply List.map_congr_left
  intro f _
  exact place_file here h f

/-- Where the reports of a class of a JAR are. -/
theorem C112_class (here : Place) (r : Reporter) (e : Str) :
    (r.subreporter e "JavaClassReport".toList).files.map (place here) =
      r.formats.map fun f => place (place here r.basedir) e ++ ["JavaClassReport".toList ++ f.extension] := by
  rw [C112_where here (r := r.subreporter e "JavaClassReport".toList) reportName_class]
  apply List.map_congr_left
  intro f _
  simp only [Reporter.subreporter, place_join]

/-- C112 in full: all reports of a comparison of two JARs are in the report directory. -/
def C112_full : Prop := ∀ (E : JarEnv) (l r : Archive) (cs : List (Change DiffOpts)) (rep : Reporter)
    (here : Place), IsSetOrder E.order → jarContentsChildren E l r = .ok cs → ReportName rep.entry →
  ∀ r' ∈ jarReporters rep (reportedEntries cs), ∀ f ∈ r'.files,
    Below (place here rep.basedir) (place here f)

theorem jarEntryChange_entry (E : JarEnv) (l r : Archive) (ev : Event) (f : Str) :
    (jarEntryChange E l r (ev, f)).hdr.entry = some f := by
  cases ev <;> simp only [jarEntryChange] <;> (repeat' split) <;> rfl

theorem notClass (n : String) (h : n ≠ "JarClassChange") {label : String} {k : Kind}
    {ign : IgnoreRule DiffOpts} {f : Str} : (jarOneSided n label k ign f).hdr.typeName ≠ "JarClassChange" := h

theorem jarEntryChange_reported (E : JarEnv) (l r : Archive) (ev : Event) (f : Str)
    (h : isReported (jarEntryChange E l r (ev, f)) = true) : ev = .diff := by
  cases ev with
  | diff => rfl
  | same =>
    exfalso
    have : (jarEntryChange E l r (.same, f)).isChange = false := by
      simp only [jarEntryChange]
      repeat' split
      all_goals rfl
    simp [isReported, this] at h
  | left =>
    exfalso
    simp only [isReported, Bool.and_eq_true, decide_eq_true_eq] at h
    revert h
    simp only [jarEntryChange]
    (repeat' split) <;> exact fun h => absurd h.1 (notClass _ (by decide))
  | right =>
    exfalso
    simp only [isReported, Bool.and_eq_true, decide_eq_true_eq] at h
    revert h
    simp only [jarEntryChange]
    (repeat' split) <;> exact fun h => absurd h.1 (notClass _ (by decide))

theorem compareLeft_sublist (l r : Archive) (rl : List Str) (fs : List Str) :
    ((compareLeft l r rl fs).1.map Prod.snd).Sublist fs ∧
      ∀ f, (.diff, f) ∈ (compareLeft l r rl fs).1 → f ∈ rl := by
  induction fs with
  | nil => simp [compareLeft]
  | cons f fs ih =>
    obtain ⟨ih1, ih2⟩ := ih
    simp only [compareLeft]
    split
    · rename_i hf
      split
      · simp
      · exact ⟨ih1.cons _, by simpa using ih2⟩
      · split
        · simp
        · refine ⟨by simpa using ih1, ?_⟩
          intro g hg
          simp only [List.singleton_append, List.mem_cons, Prod.mk.injEq, true_and] at hg
          rcases hg with rfl | hg
          · exact hf
          · exact ih2 g hg
        · refine ⟨by simpa using ih1, ?_⟩
          intro g hg
          simp only [List.singleton_append, List.mem_cons, Prod.mk.injEq, reduceCtorEq, false_and,
            false_or] at hg
          exact ih2 g hg
    · refine ⟨by simpa using ih1, ?_⟩
      intro g hg
      simp only [List.singleton_append, List.mem_cons, Prod.mk.injEq, reduceCtorEq, false_and,
        false_or] at hg
      exact ih2 g hg

/-- The reported entries are common entries, each once. -/
theorem reported_spec {E : JarEnv} {l r : Archive} {cs : List (Change DiffOpts)}
    (ho : IsSetOrder E.order) (h : jarContentsChildren E l r = .ok cs) :
    ∃ ln rn, l.namelist = .ok ln ∧ r.namelist = .ok rn ∧ (reportedEntries cs).Nodup ∧
      ∀ e ∈ reportedEntries cs, e ∈ ln ∧ e ∈ rn := by
  unfold jarContentsChildren at h
  split at h
  · cases h
  · rename_i evs hev
    cases h
    unfold compareZips at hev
    split at hev
    · simp at hev
    · rename_i ln hln
      split at hev
      · simp at hev
      · rename_i rn hrn
        obtain ⟨hs, hd⟩ := compareLeft_sublist l r rn (E.order ln)
        split at hev
        · simp at hev
        · rename_i evl hl
          rw [hl] at hs hd
          simp only [Prod.mk.injEq, and_true] at hev
          subst hev
          refine ⟨ln, rn, hln, hrn, ?_⟩
          have hsub : ∀ evs : List (Event × Str),
              (reportedEntries (evs.map (jarEntryChange E l r))).Sublist
                ((evs.filter fun p => p.1 = .diff).map Prod.snd) := by
            intro evs
            induction evs with
            | nil => exact List.Sublist.slnil
            | cons p evs ih =>
              obtain ⟨ev, f⟩ := p
              unfold reportedEntries at ih ⊢
              rw [List.map_cons, List.filterMap_cons]
              by_cases hr : isReported (jarEntryChange E l r (ev, f)) = true
              · rw [if_pos hr, jarEntryChange_entry, List.filter_cons,
                  if_pos (by simpa using jarEntryChange_reported E l r ev f hr), List.map_cons]
                exact ih.cons_cons _
              · rw [if_neg hr, List.filter_cons]
                by_cases hd' : ev = .diff
                · rw [if_pos (by simpa using hd')]
                  exact ih.cons _
                · rw [if_neg (by simpa using hd')]
                  exact ih
          have hperm : (reportedEntries (iterateByType (fun c : Change DiffOpts => c.hdr.typeName)
              ((evl ++ (E.order (rn.filter fun f => f ∉ ln)).map fun f => (Event.right, f)).map
                (jarEntryChange E l r)) jarTypes)).Perm
              (reportedEntries ((evl ++ (E.order (rn.filter fun f => f ∉ ln)).map
                fun f => (Event.right, f)).map (jarEntryChange E l r))) :=
            (C37_permutation _ _ _).filterMap _
          have hright : ∀ xs : List Str, (xs.map fun f => (Event.right, f)).filter
              (fun p => p.1 = Event.diff) = [] := by
            intro xs
            induction xs with
            | nil => rfl
            | cons x xs ih => simp
          have h1 := hsub (evl ++ (E.order (rn.filter fun f => f ∉ ln)).map fun f => (Event.right, f))
          rw [List.filter_append, hright, List.append_nil] at h1
          have h2 : ((evl.filter fun p => p.1 = Event.diff).map Prod.snd).Sublist (E.order ln) :=
            (List.filter_sublist.map _).trans hs
          refine ⟨hperm.nodup_iff.2 ((h1.trans h2).nodup (ho ln).1), ?_⟩
          intro e he
          have he := h1.subset (hperm.mem_iff.1 he)
          refine ⟨((ho ln).2 e).1 (h2.subset he), ?_⟩
          obtain ⟨⟨ev, f⟩, hp, rfl⟩ := List.mem_map.1 he
          rw [List.mem_filter] at hp
          simp only [decide_eq_true_eq] at hp
          exact hd f (hp.2 ▸ hp.1)

def slipJar (name : Str) (access : Nat) : Archive := zipOf false [(name, (tinyClass access).enc)]

theorem slip_entries (name : Str) (h : name = "../X.class".toList) : ∃ cs,
    jarContentsChildren demoEnv (slipJar name 1) (slipJar name 0) = .ok cs ∧
      reportedEntries cs = [name] := by
  subst h
  have : (match jarContentsChildren demoEnv (slipJar "../X.class".toList 1) (slipJar "../X.class".toList 0) with
    | .ok cs => some (reportedEntries cs)
    | .error _ => none) = some ["../X.class".toList] := by decide +kernel
  split at this
  · rename_i cs e
    exact ⟨cs, e, by simpa using this⟩
  · cases this

/-- The report of a class whose entry is `../X.class` is written beside the report directory. -/
theorem C112_full_fails : ¬ C112_full := by
  intro h
  obtain ⟨cs, h1, h2⟩ := slip_entries _ rfl
  have := h demoEnv _ _ cs { basedir := "rep".toList, entry := "JarReport".toList, formats := [.json] }
    ["w".toList] dedup_isSetOrder h1 ⟨by decide, by decide⟩
  rw [h2] at this
  have := this _ (List.mem_append_left _ (List.mem_map.2 ⟨_, List.mem_singleton.2 rfl, rfl⟩)) 
    "rep/../X.class/JavaClassReport.json".toList (by decide)
  exact absurd this (by unfold Below; decide)

theorem below_report (here : Place) (r : Reporter) {f : Str} {dir : Place} (h : ReportName r.entry)
    (hd : dir <+: place here r.basedir) (hf : f ∈ r.files) : Below dir (place here f) := by
  have := List.mem_map_of_mem (f := place here) hf
  rw [C112_where here h] at this
  obtain ⟨g, _, e⟩ := List.mem_map.1 this
  rw [← e]
  exact hd.trans (List.prefix_append _ _)

theorem class_basedir (here : Place) (r : Reporter) {e n : Str} (h : Inside e) :
    place here (r.subreporter e n).basedir = place here r.basedir ++ place [] e := by
  simp only [Reporter.subreporter]
  rw [place_join, place_inside _ h]

theorem jar_below (here : Place) (rep : Reporter) (classes : List Str) (hr : ReportName rep.entry)
    (hc : ∀ e ∈ classes, Inside e) :
    ∀ r' ∈ jarReporters rep classes, ReportName r'.entry ∧
      place here rep.basedir <+: place here r'.basedir := by
  intro r' h
  rcases List.mem_append.1 h with h | h
  · obtain ⟨e, he, rfl⟩ := List.mem_map.1 h
    refine ⟨reportName_class, ?_⟩
    rw [class_basedir here rep (hc e he)]
    exact List.prefix_append _ _
  · rw [List.mem_singleton] at h
    subst h
    exact ⟨hr, List.prefix_rfl⟩

/-- C112 for JARs with common entries that are relative and do not go up. What is missing: other
entries. -/
theorem C112_partial (E : JarEnv) (l r : Archive) (cs : List (Change DiffOpts)) (rep : Reporter)
    (here : Place) (ho : IsSetOrder E.order) (h : jarContentsChildren E l r = .ok cs)
    (hr : ReportName rep.entry) (hi : ∀ ln rn, l.namelist = .ok ln → r.namelist = .ok rn →
      ∀ e ∈ ln, e ∈ rn → Inside e) :
    ∀ r' ∈ jarReporters rep (reportedEntries cs), ∀ f ∈ r'.files,
      Below (place here rep.basedir) (place here f) := by
  intro r' hr' f hf
  obtain ⟨ln, rn, hl, hrn, _, hm⟩ := reported_spec ho h
  obtain ⟨h1, h2⟩ := jar_below here rep (reportedEntries cs) hr
    (fun e he => hi ln rn hl hrn e (hm e he).1 (hm e he).2) r' hr'
  exact below_report here r' h1 h2 hf

/-- The same for the reports of a comparison of distributions. -/
theorem C112_dist (rep : Reporter) (jars : List (Str × List Str)) (classes : List Str) (here : Place)
    (hr : ReportName rep.entry) (hc : ∀ e ∈ classes, Inside e)
    (hj : ∀ j ∈ jars, Inside j.1 ∧ ∀ e ∈ j.2, Inside e) :
    ∀ r' ∈ distReporters rep jars classes, ∀ f ∈ r'.files,
      Below (place here rep.basedir) (place here f) := by
  intro r' hr' f hf
  unfold distReporters at hr'
  rw [List.append_assoc] at hr'
  rcases List.mem_append.1 hr' with h | h
  · obtain ⟨j, hjm, h⟩ := List.mem_flatMap.1 h
    obtain ⟨h1, h2⟩ := jar_below here _ j.2 reportName_jar (hj j hjm).2 r' h
    refine below_report here r' h1 ?_ hf
    rw [class_basedir here rep (hj j hjm).1] at h2
    exact (List.prefix_append _ _).trans h2
  · obtain ⟨h1, h2⟩ := jar_below here rep classes hr hc r' h
    exact below_report here r' h1 h2 hf

/-! ### C113: reports do not get in each other's way -/

/-- No two reports are the same file, and no report is where another one needs a directory. -/
def Apart (here : Place) (rs : List Reporter) : Prop :=
  (rs.flatMap fun r => r.files.map (place here)).Nodup ∧
    ∀ r ∈ rs, ∀ f ∈ r.files, ∀ r' ∈ rs, ¬ place here f <+: place here r'.basedir

/-- C113 in full: the reports of a comparison of two JARs do not overwrite each other, and no report
takes the place of a directory that another one needs. -/
def C113_full : Prop := ∀ (E : JarEnv) (l r : Archive) (cs : List (Change DiffOpts)) (rep : Reporter)
    (here : Place), IsSetOrder E.order → jarContentsChildren E l r = .ok cs →
  rep.entry = "JarReport".toList → rep.formats.Nodup →
  Apart here (jarReporters rep (reportedEntries cs))

def twoJar (a b : Str) (access : Nat) : Archive :=
  zipOf false [(a, (tinyClass access).enc), (b, (tinyClass access).enc)]

theorem two_entries : ∃ cs,
    jarContentsChildren demoEnv (twoJar "X.class".toList "./X.class".toList 1)
      (twoJar "X.class".toList "./X.class".toList 0) = .ok cs ∧
      reportedEntries cs = ["X.class".toList, "./X.class".toList] := by
  have : (match jarContentsChildren demoEnv (twoJar "X.class".toList "./X.class".toList 1)
      (twoJar "X.class".toList "./X.class".toList 0) with
    | .ok cs => some (reportedEntries cs)
    | .error _ => none) = some ["X.class".toList, "./X.class".toList] := by decide +kernel
  split at this
  · rename_i cs e
    exact ⟨cs, e, by simpa using this⟩
  · cases this

/-- The reports of the entries `X.class` and `./X.class` are the same file. -/
theorem C113_full_fails : ¬ C113_full := by
  intro h
  obtain ⟨cs, h1, h2⟩ := two_entries
  have := (h demoEnv _ _ cs { basedir := "rep".toList, entry := "JarReport".toList, formats := [.json] }
    [] dedup_isSetOrder h1 rfl (by simp)).1
  rw [h2] at this
  exact absurd this (by decide)

/-- The other way it fails: the HTML report of the JAR takes the place of a directory. -/
theorem C113_directory : ¬ Apart [] (jarReporters
    { basedir := "rep".toList, entry := "JarReport".toList, formats := [.html] }
    ["JarReport.html/X.class".toList]) := by
  intro h
  have := h.2 _ (List.mem_append_right _ (List.mem_singleton.2 rfl)) "rep/JarReport.html".toList
    (by decide) _ (List.mem_append_left _ (List.mem_map.2 ⟨_, List.mem_singleton.2 rfl, rfl⟩))
  exact absurd this (by decide)

theorem append_ext_inj {a b : Str} {f g : Fmt} (h : a ++ f.extension = b ++ g.extension) :
    a = b ∧ f = g := by
  have := List.append_inj' h (by rw [extension_length, extension_length])
  exact ⟨this.1, extension_inj this.2⟩

/-- Reporters with different directories or names write different files. -/
theorem files_nodup (here : Place) (rs : List Reporter) (hn : ∀ r ∈ rs, ReportName r.entry)
    (hf : ∀ r ∈ rs, r.formats.Nodup)
    (hk : rs.Pairwise fun a b => ¬ (place here a.basedir = place here b.basedir ∧ a.entry = b.entry)) :
    (rs.flatMap fun r => r.files.map (place here)).Nodup := by
  induction rs with
  | nil => simp
  | cons r rs ih =>
    rw [List.pairwise_cons] at hk
    rw [List.flatMap_cons, List.nodup_append]
    refine ⟨?_, ih (fun x hx => hn x (by simp [hx])) (fun x hx => hf x (by simp [hx])) hk.2, ?_⟩
    · rw [C112_where here (hn r (by simp))]
      refine List.Pairwise.map _ ?_ (hf r (by simp))
      intro f g hfg e
      exact hfg (extension_inj (by simpa using e))
    · intro p hp q hq e
      subst e
      rw [C112_where here (hn r (by simp))] at hp
      obtain ⟨f, _, rfl⟩ := List.mem_map.1 hp
      obtain ⟨r', hr', hq⟩ := List.mem_flatMap.1 hq
      rw [C112_where here (hn r' (by simp [hr']))] at hq
      obtain ⟨g, _, e⟩ := List.mem_map.1 hq
      have h1 := List.append_inj' e rfl
      have h2 : r'.entry ++ g.extension = r.entry ++ f.extension := by simpa using h1.2
      exact hk.1 r' hr' ⟨h1.1.symm, (append_ext_inj h2).1.symm⟩

/-- The file names of the reports of JARs, classes and distributions. -/
def ReportFile (n : Str) : Prop := ∃ f : Fmt, n = "JarReport".toList ++ f.extension ∨
  n = "JavaClassReport".toList ++ f.extension ∨ n = "DistReport".toList ++ f.extension

/-- An entry that is relative, does not go up, and has no part that is named like a report. -/
def PlainEntry (e : Str) : Prop := Inside e ∧ ∀ n ∈ place [] e, ¬ ReportFile n

theorem prefix_mem {base a b : Place} {n : Str} (h : base ++ a ++ [n] <+: base ++ b) : n ∈ b := by
  obtain ⟨t, ht⟩ := h
  rw [List.append_assoc, List.append_assoc] at ht
  rw [← List.append_cancel_left ht]
  simp

theorem jar_pairwise (here : Place) (rep : Reporter) (classes : List Str)
    (he : rep.entry = "JarReport".toList) (hi : ∀ e ∈ classes, Inside e)
    (hn : (classes.map (place [])).Nodup) :
    (jarReporters rep classes).Pairwise fun a b =>
      ¬ (place here a.basedir = place here b.basedir ∧ a.entry = b.entry) := by
  unfold jarReporters
  rw [List.pairwise_append]
  refine ⟨?_, by simp, ?_⟩
  · rw [List.pairwise_map]
    have := List.pairwise_map.1 hn
    refine List.Pairwise.imp_of_mem ?_ this
    rintro a b ha hb hab ⟨e, _⟩
    rw [class_basedir here rep (hi a ha), class_basedir here rep (hi b hb)] at e
    exact hab (List.append_cancel_left e)
  · rintro a ha b hb ⟨_, e⟩
    obtain ⟨c, _, rfl⟩ := List.mem_map.1 ha
    rw [List.mem_singleton] at hb
    subst hb
    rw [he] at e
    exact absurd e (by
      show "JavaClassReport".toList ≠ "JarReport".toList
      decide)

/-- What the reporters of a JAR are like. -/
theorem jar_reporter (here : Place) (rep : Reporter) (classes : List Str)
    (hi : ∀ e ∈ classes, Inside e) {r : Reporter} (hr : r ∈ jarReporters rep classes) :
    r.formats = rep.formats ∧ ((r.entry = "JavaClassReport".toList ∧
      ∃ e ∈ classes, place here r.basedir = place here rep.basedir ++ place [] e) ∨ r = rep) := by
  rcases List.mem_append.1 hr with h | h
  · obtain ⟨e, he, rfl⟩ := List.mem_map.1 h
    exact ⟨rfl, .inl ⟨rfl, e, he, class_basedir here rep (hi e he)⟩⟩
  · rw [List.mem_singleton] at h
    exact ⟨by rw [h], .inr h⟩

theorem jar_apart (here : Place) (rep : Reporter) (classes : List Str)
    (he : rep.entry = "JarReport".toList) (hf : rep.formats.Nodup)
    (hi : ∀ e ∈ classes, PlainEntry e) (hn : (classes.map (place [])).Nodup) :
    Apart here (jarReporters rep classes) := by
  have hin : ∀ e ∈ classes, Inside e := fun e h => (hi e h).1
  have hname : ∀ r ∈ jarReporters rep classes, ReportName r.entry := by
    intro r hr
    rcases (jar_reporter here rep classes hin hr).2 with ⟨h, _⟩ | rfl
    · rw [h]; exact reportName_class
    · rw [he]; exact reportName_jar
  refine ⟨files_nodup here _ hname ?_ (jar_pairwise here rep classes he hin hn), ?_⟩
  · intro r hr
    rw [(jar_reporter here rep classes hin hr).1]
    exact hf
  · intro r hr f hfile r' hr' hp
    have := List.mem_map_of_mem (f := place here) hfile
    rw [C112_where here (hname r hr)] at this
    obtain ⟨g, _, e⟩ := List.mem_map.1 this
    rw [← e] at hp
    have hrf : ReportFile (r.entry ++ g.extension) := by
      rcases (jar_reporter here rep classes hin hr).2 with ⟨h, _⟩ | rfl
      · rw [h]; exact ⟨g, .inr (.inl rfl)⟩
      · rw [he]; exact ⟨g, .inl rfl⟩
    have hb : ∃ a, place here r.basedir = place here rep.basedir ++ a := by
      rcases (jar_reporter here rep classes hin hr).2 with ⟨_, c, _, h⟩ | rfl
      · exact ⟨_, h⟩
      · exact ⟨[], by simp⟩
    obtain ⟨a, ha⟩ := hb
    rw [ha] at hp
    rcases (jar_reporter here rep classes hin hr').2 with ⟨_, c, hc, h⟩ | rfl
    · rw [h] at hp
      exact (hi c hc).2 _ (prefix_mem hp) hrf
    · have : place here r'.basedir = place here r'.basedir ++ [] := by simp
      rw [this] at hp
      exact absurd (prefix_mem (by simpa using hp)) (by simp : _ ∉ ([] : Place))

/-- C113 for JARs whose common entries are plain and lead to different places. What is missing:
entries that go up or are absolute, that differ only in `.` parts and slashes, or that have a part
that is named like a report. -/
theorem C113_partial (E : JarEnv) (l r : Archive) (cs : List (Change DiffOpts)) (rep : Reporter)
    (here : Place) (ho : IsSetOrder E.order) (h : jarContentsChildren E l r = .ok cs)
    (he : rep.entry = "JarReport".toList) (hf : rep.formats.Nodup)
    (hi : ∀ ln rn, l.namelist = .ok ln → r.namelist = .ok rn →
      (∀ e ∈ ln, e ∈ rn → PlainEntry e) ∧
      ∀ e ∈ ln, e ∈ rn → ∀ e' ∈ ln, e' ∈ rn → place [] e = place [] e' → e = e') :
    Apart here (jarReporters rep (reportedEntries cs)) := by
  obtain ⟨ln, rn, hl, hr, hnd, hm⟩ := reported_spec ho h
  obtain ⟨h1, h2⟩ := hi ln rn hl hr
  refine jar_apart here rep _ he hf (fun e h => h1 e (hm e h).1 (hm e h).2) ?_
  rw [List.Nodup, List.pairwise_map]
  refine List.Pairwise.imp_of_mem ?_ hnd
  intro a b ha hb hab e
  exact hab (h2 a (hm a ha).1 (hm a ha).2 b (hm b hb).1 (hm b hb).2 e)

/-- The same for distributions: the files of a tree are plain and none is below another. -/
theorem C113_dist (rep : Reporter) (jars : List (Str × List Str)) (classes : List Str) (here : Place)
    (he : rep.entry = "DistReport".toList) (hf : rep.formats.Nodup)
    (hc : ∀ e ∈ classes, PlainEntry e) (hcn : (classes.map (place [])).Nodup)
    (hj : ∀ j ∈ jars, PlainEntry j.1 ∧ (∀ e ∈ j.2, PlainEntry e) ∧ (j.2.map (place [])).Nodup)
    (hjn : jars.Pairwise fun a b => ¬ place [] a.1 <+: place [] b.1 ∧ ¬ place [] b.1 <+: place [] a.1)
    (hjc : ∀ j ∈ jars, ∀ e ∈ classes, ¬ place [] j.1 <+: place [] e) :
    Apart here (distReporters rep jars classes) := by
  -- what the reporters are like
  have hkind : ∀ r ∈ distReporters rep jars classes, r.formats = rep.formats ∧
      (r.entry = "JarReport".toList ∨ r.entry = "JavaClassReport".toList ∨
        r.entry = "DistReport".toList) ∧
      ∃ a, place here r.basedir = place here rep.basedir ++ a ∧ ∀ n ∈ a, ¬ ReportFile n := by
    intro r hr
    unfold distReporters at hr
    simp only [List.mem_append, List.mem_flatMap, List.mem_map, List.mem_singleton] at hr
    rcases hr with (⟨j, hjm, h⟩ | ⟨e, hem, rfl⟩) | rfl
    · obtain ⟨h1, h2⟩ := jar_reporter here _ j.2 (fun e h => ((hj j hjm).2.1 e h).1) h
      refine ⟨h1, ?_⟩
      have hb := class_basedir here rep (n := "JarReport".toList) (hj j hjm).1.1
      rcases h2 with ⟨h2, e, hem, h3⟩ | rfl
      · refine ⟨.inr (.inl h2), place [] j.1 ++ place [] e, ?_, ?_⟩
        · rw [h3, hb, List.append_assoc]
        · intro n hn
          rcases List.mem_append.1 hn with hn | hn
          · exact (hj j hjm).1.2 n hn
          · exact ((hj j hjm).2.1 e hem).2 n hn
      · exact ⟨.inl rfl, _, hb, (hj j hjm).1.2⟩
    · exact ⟨rfl, .inr (.inl rfl), _, class_basedir here rep (hc e hem).1, (hc e hem).2⟩
    · exact ⟨rfl, .inr (.inr he), [], by simp, by simp⟩
  have hname : ∀ r ∈ distReporters rep jars classes, ReportName r.entry := by
    intro r hr
    rcases (hkind r hr).2.1 with h | h | h
    · rw [h]; exact reportName_jar
    · rw [h]; exact reportName_class
    · rw [h]; exact ⟨by decide, by decide⟩
  refine ⟨files_nodup here _ hname (fun r hr => by rw [(hkind r hr).1]; exact hf) ?_, ?_⟩
  · unfold distReporters
    rw [List.append_assoc, List.pairwise_append]
    refine ⟨?_, ?_, ?_⟩
    · -- within the JARs
      clear hkind hname hjc
      induction jars with
      | nil => simp
      | cons j jars ih =>
        rw [List.flatMap_cons, List.pairwise_append]
        rw [List.pairwise_cons] at hjn
        have hj0 := hj j (by simp)
        refine ⟨jar_pairwise here _ j.2 rfl (fun e h => (hj0.2.1 e h).1) hj0.2.2,
          ih (fun x hx => hj x (by simp [hx])) hjn.2, ?_⟩
        rintro a ha b hb ⟨e, _⟩
        obtain ⟨k, hk, hb⟩ := List.mem_flatMap.1 hb
        have hk0 := hj k (by simp [hk])
        have hba := class_basedir here rep (n := "JarReport".toList) hj0.1.1
        have hbb := class_basedir here rep (n := "JarReport".toList) hk0.1.1
        have h1 : ∃ x, place here a.basedir = place here rep.basedir ++ (place [] j.1 ++ x) := by
          rcases (jar_reporter here _ j.2 (fun e h => (hj0.2.1 e h).1) ha).2 with ⟨_, c, _, h⟩ | rfl
          · exact ⟨_, by rw [h, hba, List.append_assoc]⟩
          · exact ⟨[], by rw [hba]; simp⟩
        have h2 : ∃ x, place here b.basedir = place here rep.basedir ++ (place [] k.1 ++ x) := by
          rcases (jar_reporter here _ k.2 (fun e h => (hk0.2.1 e h).1) hb).2 with ⟨_, c, _, h⟩ | rfl
          · exact ⟨_, by rw [h, hbb, List.append_assoc]⟩
          · exact ⟨[], by rw [hbb]; simp⟩
        obtain ⟨x, hx⟩ := h1
        obtain ⟨y, hy⟩ := h2
        rw [hx, hy] at e
        have e := List.append_cancel_left e
        obtain ⟨n1, n2⟩ := hjn.1 k hk
        rcases List.append_eq_append_iff.1 e with ⟨t, h, _⟩ | ⟨t, h, _⟩
        · exact n1 ⟨t, h.symm⟩
        · exact n2 ⟨t, h.symm⟩
    · -- the classes and the whole
      rw [List.pairwise_append]
      refine ⟨?_, by simp, ?_⟩
      · rw [List.pairwise_map]
        refine List.Pairwise.imp_of_mem ?_ (List.pairwise_map.1 hcn)
        rintro a b ha hb hab ⟨e, _⟩
        rw [class_basedir here rep (hc a ha).1, class_basedir here rep (hc b hb).1] at e
        exact hab (List.append_cancel_left e)
      · rintro a ha b hb ⟨_, e⟩
        obtain ⟨c, _, rfl⟩ := List.mem_map.1 ha
        rw [List.mem_singleton] at hb
        subst hb
        rw [he] at e
        exact absurd e (by
          show "JavaClassReport".toList ≠ "DistReport".toList
          decide)
    · rintro a ha b hb ⟨e, e2⟩
      obtain ⟨j, hjm, ha⟩ := List.mem_flatMap.1 ha
      have hj0 := hj j hjm
      have hba := class_basedir here rep (n := "JarReport".toList) hj0.1.1
      have hja := (jar_reporter here _ j.2 (fun e h => (hj0.2.1 e h).1) ha).2
      rcases List.mem_append.1 hb with hb | hb
      · obtain ⟨c, hcm, rfl⟩ := List.mem_map.1 hb
        rw [class_basedir here rep (hc c hcm).1] at e
        have h1 : ∃ x, place here a.basedir = place here rep.basedir ++ (place [] j.1 ++ x) := by
          rcases hja with ⟨_, c, _, h⟩ | rfl
          · exact ⟨_, by rw [h, hba, List.append_assoc]⟩
          · exact ⟨[], by rw [hba]; simp⟩
        obtain ⟨x, hx⟩ := h1
        rw [hx] at e
        exact hjc j hjm c hcm ⟨x, List.append_cancel_left e⟩
      · rw [List.mem_singleton] at hb
        subst hb
        rw [he] at e2
        rcases hja with ⟨h, _⟩ | rfl
        · rw [h] at e2; exact absurd e2 (by decide)
        · exact absurd e2 (by
            show "JarReport".toList ≠ "DistReport".toList
            decide)
  · intro r hr f hfile r' hr' hp
    have := List.mem_map_of_mem (f := place here) hfile
    rw [C112_where here (hname r hr)] at this
    obtain ⟨g, _, e⟩ := List.mem_map.1 this
    rw [← e] at hp
    obtain ⟨_, h1, a, ha, _⟩ := hkind r hr
    obtain ⟨_, _, b, hb, hbn⟩ := hkind r' hr'
    rw [ha, hb] at hp
    refine hbn _ (prefix_mem hp) ?_
    rcases h1 with h | h | h
    · rw [h]; exact ⟨g, .inl rfl⟩
    · rw [h]; exact ⟨g, .inr (.inl rfl)⟩
    · rw [h]; exact ⟨g, .inr (.inr rfl)⟩

example : PlainEntry "a/B.class".toList ∧ PlainEntry "./lib/x.jar".toList := by
  have key : ∀ (p : Str) (q : Place), p.head? ≠ some '/' → ['.', '.'] ∉ splitAll '/' p → place [] p = q →
      (∀ n ∈ q, ∀ f : Fmt, n.length ≠ 14 ∧ n.length ≠ 20 ∧ n.length ≠ 15) → PlainEntry p := by
    intro p q h1 h2 h3 h4
    refine ⟨⟨h1, h2⟩, ?_⟩
    rw [h3]
    rintro n hn ⟨f, h | h | h⟩
    · exact (h4 n hn f).1 (by rw [h, List.length_append, extension_length]; rfl)
    · exact (h4 n hn f).2.1 (by rw [h, List.length_append, extension_length]; rfl)
    · exact (h4 n hn f).2.2 (by rw [h, List.length_append, extension_length]; rfl)
  constructor
  · refine key _ ["a".toList, "B.class".toList] (by decide) (by decide) (by decide) ?_
    intro n hn f
    simp only [List.mem_cons, List.not_mem_nil, or_false] at hn
    rcases hn with rfl | rfl <;> decide
  · refine key _ ["lib".toList, "x.jar".toList] (by decide) (by decide) (by decide) ?_
    intro n hn f
    simp only [List.mem_cons, List.not_mem_nil, or_false] at hn
    rcases hn with rfl | rfl <;> decide

/-! ### C114: breadcrumbs -/

/-- A report below another one, step by step. -/
def Reporter.sub (r : Reporter) (ss : List (Str × Str)) : Reporter :=
  ss.foldl (fun r s => r.subreporter s.1 s.2) r

theorem sub_snoc (r : Reporter) (ss : List (Str × Str)) (s : Str × Str) :
    r.sub (ss ++ [s]) = (r.sub ss).subreporter s.1 s.2 := by
  simp [Reporter.sub, List.foldl_append]

/-- The breadcrumbs of a report are the directories and names of the reports above it. -/
theorem sub_crumbs (r : Reporter) (ss : List (Str × Str)) :
    (r.sub ss).crumbs = r.crumbs ++ (List.range ss.length).map fun k =>
      ((r.sub (ss.take k)).basedir, (r.sub (ss.take k)).entry) := by
  induction hn : ss.length generalizing ss with
  | zero => rw [List.eq_nil_of_length_eq_zero hn]; simp [Reporter.sub]
  | succ n ih =>
    rcases List.eq_nil_or_concat ss with rfl | ⟨ts, s, rfl⟩
    · simp at hn
    · rw [List.concat_eq_append] at hn ⊢
      have hl : ts.length = n := by simpa using hn
      rw [sub_snoc, List.range_succ, List.map_append]
      simp only [Reporter.subreporter, List.map_cons, List.map_nil]
      rw [ih ts hl, List.append_assoc]
      congr 2
      · apply List.map_congr_left
        intro k hk
        have hk : k < n := List.mem_range.1 hk
        rw [List.take_append_of_le_length (by omega)]
      · rw [List.take_append_of_le_length (by omega), ← hl, List.take_length]

theorem relativeCrumbs_get (cwd basedir : Str) (cs ps : List (Str × Str))
    (h : Reporter.relativeCrumbs cwd basedir cs = .ok ps) :
    ps.length = cs.length ∧ ∀ k (hk : k < cs.length), ∃ p, relpath cwd (cs[k]).1 basedir = .ok p ∧
      ps[k]? = some (p, (cs[k]).2) := by
  induction cs generalizing ps with
  | nil =>
    cases h
    exact ⟨rfl, fun k hk => absurd hk (by simp)⟩
  | cons c cs ih =>
    obtain ⟨b, e⟩ := c
    simp only [Reporter.relativeCrumbs] at h
    split at h
    · cases h
    · rename_i p hp
      split at h
      · cases h
      · rename_i ps' hps
        cases h
        obtain ⟨h1, h2⟩ := ih ps' hps
        refine ⟨by simp [h1], fun k hk => ?_⟩
        cases k with
        | zero => exact ⟨p, hp, rfl⟩
        | succ k => simpa using h2 k (by simpa using hk)

/-- The characters of a link that do not stand for themselves. -/
def linkSpecial : Str := ['#', '?', '%', ':', '"', '&']

/-- A link without such characters, and without a host. -/
def PlainLink (s : Str) : Prop := (∀ c ∈ s, c ∉ linkSpecial) ∧ ¬ "//".toList <+: s

theorem htmlText_plain (s : Str) (h : '&' ∉ s) : htmlText s = s := by
  induction s with
  | nil => rfl
  | cons c s ih =>
    simp only [List.mem_cons, not_or] at h
    have hc : c ≠ '&' := fun e => h.1 e.symm
    have : htmlText (c :: s) = c :: htmlText s := by
      rw [htmlText] <;> (intros; exact hc (by assumption))
    rw [this, ih h.2]

theorem percentDecode_plain (s : Str) (h : '%' ∉ s) : percentDecode s = s := by
  induction s with
  | nil => rfl
  | cons c s ih =>
    simp only [List.mem_cons, not_or] at h
    have hc : c ≠ '%' := fun e => h.1 e.symm
    have : percentDecode (c :: s) = c :: percentDecode s := by
      rw [percentDecode]
      intro a b t e
      exact absurd e hc
    rw [this, ih h.2]

theorem takeWhile_no {c : Char} {s : Str} (h : c ∉ s) : s.takeWhile (fun x => x ≠ c) = s := by
  induction s with
  | nil => rfl
  | cons x s ih =>
    simp only [List.mem_cons, not_or] at h
    rw [List.takeWhile_cons, if_pos (by simpa using fun e => h.1 e.symm), ih h.2]

/-- A plain link leads where the path leads. -/
theorem follow_plain (dir : Place) {s : Str} (h : PlainLink s) :
    follow dir (attrValue s) = some (place dir s) := by
  have hno : ∀ c ∈ linkSpecial, c ∉ s := fun c hc hs => h.1 c hs hc
  have e1 : attrValue s = s := by
    unfold attrValue
    rw [takeWhile_no (hno '"' (by decide)), htmlText_plain _ (hno '&' (by decide))]
  rw [e1]
  unfold follow
  rw [takeWhile_no (hno '#' (by decide))]
  simp only
  rw [if_neg, if_neg, takeWhile_no (hno '?' (by decide)), percentDecode_plain _ (hno '%' (by decide))]
  · rw [List.isPrefixOf_iff_prefix]
    exact h.2
  · intro hm
    exact hno ':' (by decide) ((List.takeWhile_sublist _).subset hm)

/-- The way up consists of dots and slashes. -/
theorem relpath_up {cwd path start r : Str} {q : Place} (hc : cwd.head? = some '/')
    (hq : place (place [] cwd) start = place (place [] cwd) path ++ q)
    (h : relpath cwd path start = .ok r) : (∀ c ∈ r, c = '.' ∨ c = '/') ∧ r.head? = some '.' := by
  unfold relpath at h
  split at h
  · cases h
  · simp only [abspath_place hc, hq] at h
    have hcl : ∀ a b : List Str, commonLen (a ++ b) a = a.length := by
      intro a b
      induction a with
      | nil => cases b <;> rfl
      | cons x a ih => simp [commonLen, ih]
    rw [hcl, List.drop_length, List.append_nil] at h
    split at h
    · cases h
      exact ⟨by simp, rfl⟩
    · rename_i c cs e
      cases h
      have hall : ∀ x ∈ c :: cs, x = ['.', '.'] := by
        intro x hx
        rw [← e] at hx
        exact (List.mem_replicate.1 hx).2
      have key : ∀ (cs : List Str) (a : Str), (∀ x ∈ cs, x = ['.', '.']) →
          (∀ c ∈ a, c = '.' ∨ c = '/') → a.head? = some '.' →
          (∀ c ∈ cs.foldl pathJoin a, c = '.' ∨ c = '/') ∧ (cs.foldl pathJoin a).head? = some '.' := by
        intro cs
        induction cs with
        | nil => intro a _ h1 h2; exact ⟨h1, h2⟩
        | cons x cs ih =>
          intro a hx h1 h2
          rw [List.foldl_cons]
          have hx0 := hx x (by simp)
          subst hx0
          apply ih _ fun y hy => hx y (by simp [hy])
          · intro d hd
            unfold pathJoin at hd
            rw [if_neg (by simp)] at hd
            split at hd
            · rcases List.mem_append.1 hd with hd | hd
              · exact h1 d hd
              · simp only [List.mem_cons, List.not_mem_nil, or_false, or_self] at hd
                exact .inl hd
            · rcases List.mem_append.1 hd with hd | hd
              · exact h1 d hd
              · simp only [List.mem_cons, List.not_mem_nil, or_false, or_self] at hd
                rcases hd with hd | hd
                · exact .inr hd
                · exact .inl hd
          · unfold pathJoin
            rw [if_neg (by simp)]
            cases a with
            | nil => simp at h2
            | cons y a => split <;> simpa using h2
      have hc0 := hall c (by simp)
      subst hc0
      exact key cs _ (fun x hx => hall x (by simp [hx])) (by simp) rfl

theorem sub_basedir (here : Place) (r : Reporter) (ss : List (Str × Str)) (h : ∀ s ∈ ss, Inside s.1) :
    ∃ q, place here (r.sub ss).basedir = place here r.basedir ++ q := by
  induction hn : ss.length generalizing ss with
  | zero => rw [List.eq_nil_of_length_eq_zero hn]; exact ⟨[], by simp [Reporter.sub]⟩
  | succ n ih =>
    rcases List.eq_nil_or_concat ss with rfl | ⟨ts, s, rfl⟩
    · simp at hn
    · rw [List.concat_eq_append] at hn h ⊢
      obtain ⟨q, hq⟩ := ih ts (fun x hx => h x (by simp [hx])) (by simpa using hn)
      rw [sub_snoc, class_basedir here _ (h s (by simp)), hq, List.append_assoc]
      exact ⟨_, rfl⟩

theorem pathJoin_ne_nil {a b : Str} (h : a ≠ []) : pathJoin a b ≠ [] := by
  unfold pathJoin
  split
  · rename_i hb; intro e; rw [e] at hb; simp at hb
  · split
    · simp [h]
    · simp [h]

theorem sub_basedir_ne (r : Reporter) (ss : List (Str × Str)) (h : r.basedir ≠ []) :
    (r.sub ss).basedir ≠ [] := by
  unfold Reporter.sub
  induction ss generalizing r with
  | nil => exact h
  | cons s ss ih => exact ih _ (pathJoin_ne_nil h)

/-- Where the HTML report of a reporter is. -/
def htmlPlace (here : Place) (r : Reporter) : Place :=
  place here r.basedir ++ [r.entry ++ Fmt.html.extension]

/-- C114 as paths, for all sub-reports: each breadcrumb is the way to the HTML report above, and is
labelled with its name. -/
theorem C114_path (cwd : Str) (r : Reporter) (ss : List (Str × Str)) (hc : cwd.head? = some '/')
    (hr : r.crumbs = []) (hb : r.basedir ≠ []) (hn : ∀ k, ReportName (r.sub (ss.take k)).entry) :
    ∃ cs, Reporter.relativeCrumbs cwd (r.sub ss).basedir (r.sub ss).crumbs = .ok cs ∧
      cs.length = ss.length ∧
      ∀ k < ss.length, ∃ c, cs[k]? = some c ∧ c.2 = (r.sub (ss.take k)).entry ∧
        place (place (place [] cwd) (r.sub ss).basedir) (crumbHref c) =
          htmlPlace (place [] cwd) (r.sub (ss.take k)) := by
  have hcr := sub_crumbs r ss
  rw [hr, List.nil_append] at hcr
  obtain ⟨cs, hcs⟩ := relativeCrumbs_ok cwd (r.sub ss).basedir (r.sub ss).crumbs (by
    rw [hcr]
    intro c hc
    obtain ⟨k, _, rfl⟩ := List.mem_map.1 hc
    exact sub_basedir_ne r _ hb)
  refine ⟨cs, hcs, ?_⟩
  obtain ⟨h1, h2⟩ := relativeCrumbs_get _ _ _ _ hcs
  refine ⟨by rw [h1, hcr]; simp, fun k hk => ?_⟩
  obtain ⟨p, hp, hg⟩ := h2 k (by rw [hcr]; simpa using hk)
  have hgk : (r.sub ss).crumbs[k]'(by rw [hcr]; simpa using hk) =
      ((r.sub (ss.take k)).basedir, (r.sub (ss.take k)).entry) := by
    simp only [hcr, List.getElem_map, List.getElem_range]
  rw [hgk] at hp hg
  refine ⟨_, hg, rfl, ?_⟩
  unfold crumbHref htmlPlace
  rw [place_join, relpath_place hc hp]
  exact place_name _ (reportFile_name (hn k) .html)

/-- C114: on the HTML page of a report below others, each breadcrumb is a link to the HTML page of
the report above. -/
theorem C114_links (cwd : Str) (r : Reporter) (ss : List (Str × Str)) (hc : cwd.head? = some '/')
    (hr : r.crumbs = []) (hb : r.basedir ≠ []) (hi : ∀ s ∈ ss, Inside s.1)
    (hn : ∀ k, ReportName (r.sub (ss.take k)).entry ∧ ∀ c ∈ (r.sub (ss.take k)).entry, c ∉ linkSpecial) :
    ∃ cs, Reporter.relativeCrumbs cwd (r.sub ss).basedir (r.sub ss).crumbs = .ok cs ∧
      cs.length = ss.length ∧
      ∀ k < ss.length, ∃ c, cs[k]? = some c ∧ c.2 = (r.sub (ss.take k)).entry ∧
        follow (place (place [] cwd) (r.sub ss).basedir) (attrValue (crumbHref c)) =
          some (htmlPlace (place [] cwd) (r.sub (ss.take k))) := by
  obtain ⟨cs, h1, h2, h3⟩ := C114_path cwd r ss hc hr hb fun k => (hn k).1
  refine ⟨cs, h1, h2, fun k hk => ?_⟩
  obtain ⟨c, hck, hce, hpl⟩ := h3 k hk
  refine ⟨c, hck, hce, ?_⟩
  rw [← hpl]
  apply follow_plain
  -- the path of the breadcrumb goes up
  obtain ⟨q, hq⟩ : ∃ q, place (place [] cwd) (r.sub ss).basedir =
      place (place [] cwd) (r.sub (ss.take k)).basedir ++ q := by
    have : r.sub ss = (r.sub (ss.take k)).sub (ss.drop k) := by
      simp only [Reporter.sub]
      rw [← List.foldl_append, List.take_append_drop]
    rw [this]
    exact sub_basedir _ _ _ fun s hs => hi s (List.mem_of_mem_drop hs)
  have hcr := sub_crumbs r ss
  rw [hr, List.nil_append] at hcr
  obtain ⟨p, hp, hg⟩ := (relativeCrumbs_get _ _ _ _ h1).2 k (by rw [hcr]; simpa using hk)
  have hgk : (r.sub ss).crumbs[k]'(by rw [hcr]; simpa using hk) =
      ((r.sub (ss.take k)).basedir, (r.sub (ss.take k)).entry) := by
    simp only [hcr, List.getElem_map, List.getElem_range]
  rw [hgk] at hp hg
  rw [hck, Option.some.injEq] at hg
  obtain ⟨hdots, hhead⟩ := relpath_up hc hq hp
  rw [hg]
  have hent : ∀ c ∈ (r.sub (ss.take k)).entry ++ ".html".toList, c ∉ linkSpecial := by
    have hx : ∀ c ∈ ".html".toList, c ∉ linkSpecial := by decide
    intro c hc
    rcases List.mem_append.1 hc with hc | hc
    · exact (hn k).2 c hc
    · exact hx c hc
  have hdot : ∀ c ∈ p, c ∉ linkSpecial := by
    intro c hc
    rcases hdots c hc with rfl | rfl <;> decide
  have hnh : ((r.sub (ss.take k)).entry ++ ".html".toList).head? ≠ some '/' := by
    cases he : (r.sub (ss.take k)).entry with
    | nil => exact absurd he (hn k).1.1
    | cons x xs =>
      intro e
      simp only [List.cons_append, List.head?_cons, Option.some.injEq] at e
      exact (hn k).1.2 (by rw [he, e]; simp)
  have hslash : '/' ∉ linkSpecial := by decide
  cases p with
  | nil => simp at hhead
  | cons x p =>
    simp only [List.head?_cons, Option.some.injEq] at hhead
    subst hhead
    simp only [crumbHref, pathJoin]
    rw [if_neg hnh]
    constructor
    · intro c hc
      split at hc
      · rcases List.mem_append.1 hc with hc | hc
        · exact hdot c hc
        · exact hent c hc
      · rcases List.mem_append.1 hc with hc | hc
        · exact hdot c hc
        · rcases List.mem_cons.1 hc with rfl | hc
          · exact hslash
          · exact hent c hc
    · rintro ⟨t, ht⟩
      split at ht <;> simp at ht

example : Reporter.relativeCrumbs "/w".toList "rep/x.jar/a/B.class".toList
      (Reporter.sub { basedir := "rep".toList, entry := "DistReport".toList }
        [("x.jar".toList, "JarReport".toList), ("a/B.class".toList, "JavaClassReport".toList)]).crumbs =
    .ok [("../../..".toList, "DistReport".toList), ("../..".toList, "JarReport".toList)] := by
  decide +kernel

/-! ### C115: links to sub-reports -/

/-- C115 in full: on the HTML page of a report, the link at an entry leads to the HTML page of its
report. -/
def C115_full : Prop := ∀ (here : Place) (r : Reporter) (e name : Str), e ≠ [] → ReportName name →
  (∀ c ∈ name, c ∉ linkSpecial) →
  follow (place here r.basedir) (attrValue (detailsHref e name)) =
    some (htmlPlace here (r.subreporter e name))

/-- The link at the entry `a#b.class` leads to `a`. -/
theorem C115_full_fails : ¬ C115_full := by
  intro h
  have := h [] { basedir := "rep".toList, entry := "JarReport".toList } "a#b.class".toList
    "JavaClassReport".toList (by decide) reportName_class (by decide)
  exact absurd this (by decide)

/-- As paths they are right, for all entries. -/
theorem C115_path (here : Place) (r : Reporter) (e name : Str) (he : e ≠ []) (hn : ReportName name) :
    place (place here r.basedir) (detailsHref e name) = htmlPlace here (r.subreporter e name) := by
  unfold detailsHref htmlPlace
  have h1 : e ++ "/".toList ++ name ++ ".html".toList = e ++ '/' :: (name ++ ".html".toList) := by
    simp
  have hname : IsName (name ++ ".html".toList) := reportFile_name hn .html
  have h2 : place (place here r.basedir) (e ++ '/' :: (name ++ ".html".toList)) =
      place (place (place here r.basedir) e) (name ++ ".html".toList) := by
    unfold place
    have h3 : (e ++ '/' :: (name ++ ".html".toList)).head? = e.head? := by
      cases e with
      | nil => exact absurd rfl he
      | cons x e => rfl
    have h4 : (name ++ ".html".toList).head? ≠ some '/' := by
      intro x
      exact hname.2.1 (List.mem_of_head? x)
    rw [h3, splitAll_slash, List.foldl_append, if_neg h4]
  rw [h1, h2, place_name _ hname]
  simp only [Reporter.subreporter, place_join]
  rfl

/-- C115 for entries without special characters and without a double slash in front. What is
missing: the other ones, which are neither quoted nor percent-encoded. -/
theorem C115_partial (here : Place) (r : Reporter) (e name : Str) (he : e ≠ []) (hn : ReportName name)
    (hname : ∀ c ∈ name, c ∉ linkSpecial) (hp : ∀ c ∈ e, c ∉ linkSpecial)
    (hs : ¬ "//".toList <+: e ++ "/".toList) :
    follow (place here r.basedir) (attrValue (detailsHref e name)) =
      some (htmlPlace here (r.subreporter e name)) := by
  rw [← C115_path here r e name he hn]
  apply follow_plain
  constructor
  · have hx : ∀ c ∈ ".html".toList, c ∉ linkSpecial := by decide
    have hy : ∀ c ∈ "/".toList, c ∉ linkSpecial := by decide
    intro c hc
    unfold detailsHref at hc
    simp only [List.mem_append] at hc
    rcases hc with ((hc | hc) | hc) | hc
    · exact hp c hc
    · exact hy c hc
    · exact hname c hc
    · exact hx c hc
  · rintro ⟨t, ht⟩
    unfold detailsHref at ht
    rw [List.append_assoc] at ht
    have hl : "//".toList.length ≤ (e ++ "/".toList).length := by
      have := List.length_pos_iff.2 he
      have h1 : "//".toList.length = 2 := rfl
      have h2 : "/".toList.length = 1 := rfl
      rw [List.length_append]
      omega
    exact hs (List.prefix_of_prefix_length_le ⟨t, ht⟩ (List.prefix_append _ _) hl)

example : detailsHref "a/B.class".toList "JavaClassReport".toList =
    "a/B.class/JavaClassReport.html".toList := by decide

/-! ### C116: escaping -/

/-- One character, escaped. -/
def escapeChar (c : Char) : Str :=
  if c = '&' then ['&', 'a', 'm', 'p', ';'] else if c = '>' then ['&', 'g', 't', ';']
  else if c = '<' then ['&', 'l', 't', ';'] else [c]

theorem xmlEscape_cons (c : Char) (s : Str) : xmlEscape (c :: s) = escapeChar c ++ xmlEscape s := by
  have h1 : "&amp;".toList = ['&', 'a', 'm', 'p', ';'] := rfl
  have h2 : "&gt;".toList = ['&', 'g', 't', ';'] := rfl
  have h3 : "&lt;".toList = ['&', 'l', 't', ';'] := rfl
  unfold xmlEscape escapeChar
  rw [h1, h2, h3]
  simp only [List.flatMap_cons, List.flatMap_append]
  congr 1
  by_cases ha : c = '&'
  · subst ha; decide
  · by_cases hg : c = '>'
    · subst hg; decide
    · by_cases hl : c = '<'
      · subst hl; decide
      · simp [ha, hg, hl]

/-- C116: an HTML page that contains the escaped text shows the text. -/
theorem C116_shows (s : Str) : htmlText (xmlEscape s) = s := by
  induction s with
  | nil => rfl
  | cons c s ih =>
    rw [xmlEscape_cons]
    unfold escapeChar
    split
    · rename_i h
      subst h
      simp only [List.cons_append, List.nil_append, htmlText, ih]
    · split
      · rename_i h
        subst h
        simp only [List.cons_append, List.nil_append, htmlText, ih]
      · split
        · rename_i h
          subst h
          simp only [List.cons_append, List.nil_append, htmlText, ih]
        · rename_i ha _ _
          rw [List.singleton_append]
          have : htmlText (c :: xmlEscape s) = c :: htmlText (xmlEscape s) := by
            rw [htmlText] <;> (intros; exact ha (by assumption))
          rw [this, ih]

/-- C116: different texts are escaped differently. -/
theorem C116_injective {s t : Str} (h : xmlEscape s = xmlEscape t) : s = t := by
  rw [← C116_shows s, ← C116_shows t, h]

/-- C116: the escaped text contains no tag, and every `&` begins a character reference. -/
theorem C116_inert (s : Str) : '<' ∉ xmlEscape s ∧ '>' ∉ xmlEscape s ∧
    ∀ pre post, xmlEscape s = pre ++ '&' :: post →
      "amp;".toList <+: post ∨ "gt;".toList <+: post ∨ "lt;".toList <+: post := by
  induction s with
  | nil => simp [xmlEscape]
  | cons c s ih =>
    obtain ⟨h1, h2, h3⟩ := ih
    rw [xmlEscape_cons]
    have hc : '<' ∉ escapeChar c ∧ '>' ∉ escapeChar c := by
      unfold escapeChar
      split
      · decide
      · split
        · decide
        · split
          · decide
          · rename_i _ hg hl
            simp only [List.mem_singleton]
            exact ⟨fun e => hl e.symm, fun e => hg e.symm⟩
    refine ⟨by simp [h1, hc.1], by simp [h2, hc.2], ?_⟩
    intro pre post h
    rcases List.append_eq_append_iff.1 h with ⟨t, rfl, ht⟩ | ⟨t, hp, ht⟩
    · exact h3 t post ht
    · -- the `&` is in the escaped character
      cases t with
      | nil =>
        simp only [List.append_nil] at hp
        exact h3 [] post (by simpa using ht.symm)
      | cons x t =>
        simp only [List.cons_append, List.cons.injEq] at ht
        obtain ⟨rfl, rfl⟩ := ht
        have key : pre = [] ∧ (t = ['a', 'm', 'p', ';'] ∨ t = ['g', 't', ';'] ∨ t = ['l', 't', ';']) := by
          unfold escapeChar at hp
          split at hp
          · rcases pre with _ | ⟨_, _ | ⟨_, _ | ⟨_, _ | ⟨_, _ | ⟨_, pre⟩⟩⟩⟩⟩ <;>
              simp at hp <;> simp [hp]
          · split at hp
            · rcases pre with _ | ⟨_, _ | ⟨_, _ | ⟨_, _ | ⟨_, pre⟩⟩⟩⟩ <;> simp at hp <;> simp [hp]
            · split at hp
              · rcases pre with _ | ⟨_, _ | ⟨_, _ | ⟨_, _ | ⟨_, pre⟩⟩⟩⟩ <;> simp at hp <;> simp [hp]
              · rename_i ha _ _
                rcases pre with _ | ⟨_, pre⟩ <;> simp at hp
                exact absurd hp.1 ha
        obtain ⟨_, rfl | rfl | rfl⟩ := key
        · exact .inl ⟨_, rfl⟩
        · exact .inr (.inl ⟨_, rfl⟩)
        · exact .inr (.inr ⟨_, rfl⟩)

example : xmlEscape "a<b && \"c\" &lt;".toList = "a&lt;b &amp;&amp; \"c\" &amp;lt;".toList := by decide

/-! ### C117: the links to style sheets and scripts -/

/-- A name that the code leaves alone. -/
def Absolute (u : Str) : Prop :=
  "http:".toList <+: u ∨ "https:".toList <+: u ∨ "file:".toList <+: u ∨ "/".toList <+: u

theorem relativeUri_eq (ex : Str → Bool) (cwd basedir uri : Str) :
    (Absolute uri ∨ ex uri = false → relativeUri ex cwd basedir uri = .ok uri) ∧
      (¬ Absolute uri → ex uri = true → relativeUri ex cwd basedir uri = relpath cwd uri basedir) := by
  have : (("http:".toList.isPrefixOf uri || "https:".toList.isPrefixOf uri ||
      "file:".toList.isPrefixOf uri || "/".toList.isPrefixOf uri) = true) ↔ Absolute uri := by
    simp only [Bool.or_eq_true, List.isPrefixOf_iff_prefix, Absolute, or_assoc]
  unfold relativeUri
  constructor
  · rintro (h | h)
    · rw [if_pos (this.2 h)]
    · split
      · rfl
      · rw [if_neg (by simp [h])]
  · intro h1 h2
    rw [if_neg (fun e => h1 (this.1 e)), if_pos h2]

/-- C117 in full: a style sheet or script that is given as the name of an existing file is linked to
from every page. -/
def C117_full : Prop := ∀ (ex : Str → Bool) (cwd basedir uri : Str), cwd.head? = some '/' →
  uri ≠ [] → ex uri = true →
  ∃ v, relativeUri ex cwd basedir uri = .ok v ∧
    follow (place (place [] cwd) basedir) (attrValue v) = some (place (place [] cwd) uri)

/-- The link to `a#b.css` leads to `a`. -/
theorem C117_full_fails : ¬ C117_full := by
  intro h
  obtain ⟨v, h1, h2⟩ := h (fun _ => true) "/w".toList "rep".toList "a#b.css".toList rfl (by decide) rfl
  have e : relativeUri (fun _ => true) "/w".toList "rep".toList "a#b.css".toList =
    .ok "../a#b.css".toList := by decide +kernel
  rw [e] at h1
  cases h1
  exact absurd h2 (by decide)

/-- The characters of `relpath`. -/
theorem relpath_chars {cwd path start r : Str} (hc : cwd.head? = some '/')
    (h : relpath cwd path start = .ok r) :
    (∀ c ∈ r, c = '.' ∨ c = '/' ∨ ∃ n ∈ place (place [] cwd) path, c ∈ n) ∧ r.head? ≠ some '/' := by
  unfold relpath at h
  split at h
  · cases h
  · simp only [abspath_place hc] at h
    have hnm : Names (place (place [] cwd) path) :=
      names_place (names_place (by intro n hn; simp at hn) _) _
    generalize place (place [] cwd) path = pl at h hnm
    generalize commonLen _ pl = i at h
    split at h
    · cases h
      exact ⟨by simp, by simp⟩
    · rename_i c cs e
      cases h
      have hall : ∀ x ∈ c :: cs, (∀ d ∈ x, d = '.' ∨ d = '/' ∨ ∃ n ∈ pl, d ∈ n) ∧ x ≠ [] ∧
          x.head? ≠ some '/' := by
        intro x hx
        rw [← e] at hx
        rcases List.mem_append.1 hx with hx | hx
        · obtain ⟨_, rfl⟩ := List.mem_replicate.1 hx
          exact ⟨by simp, by simp, by simp⟩
        · have hm := List.mem_of_mem_drop hx
          exact ⟨fun d hd => .inr (.inr ⟨x, hm, hd⟩), (hnm x hm).1,
            fun e => (hnm x hm).2.1 (List.mem_of_head? e)⟩
      have key : ∀ (cs : List Str) (a : Str), (∀ x ∈ cs, (∀ d ∈ x, d = '.' ∨ d = '/' ∨ ∃ n ∈ pl, d ∈ n) ∧
            x ≠ [] ∧ x.head? ≠ some '/') → (∀ d ∈ a, d = '.' ∨ d = '/' ∨ ∃ n ∈ pl, d ∈ n) → a ≠ [] →
          a.head? ≠ some '/' →
          (∀ d ∈ cs.foldl pathJoin a, d = '.' ∨ d = '/' ∨ ∃ n ∈ pl, d ∈ n) ∧
            (cs.foldl pathJoin a).head? ≠ some '/' := by
        intro cs
        induction cs with
        | nil => intro a _ h1 _ h2; exact ⟨h1, h2⟩
        | cons x cs ih =>
          intro a hx h1 h0 h2
          rw [List.foldl_cons]
          obtain ⟨hx1, hx2, hx3⟩ := hx x (by simp)
          apply ih _ fun y hy => hx y (by simp [hy])
          · intro d hd
            unfold pathJoin at hd
            rw [if_neg hx3] at hd
            split at hd
            · rcases List.mem_append.1 hd with hd | hd
              · exact h1 d hd
              · exact hx1 d hd
            · rcases List.mem_append.1 hd with hd | hd
              · exact h1 d hd
              · rcases List.mem_cons.1 hd with hd | hd
                · exact .inr (.inl hd)
                · exact hx1 d hd
          · exact pathJoin_ne_nil h0
          · unfold pathJoin
            rw [if_neg hx3]
            cases a with
            | nil => exact absurd rfl h0
            | cons y a => split <;> simpa using h2
      obtain ⟨c1, c2, c3⟩ := hall c (by simp)
      exact key cs c (fun x hx => hall x (by simp [hx])) c1 c2 c3

/-- As paths they are right. -/
theorem C117_path (ex : Str → Bool) (cwd basedir uri : Str) (hc : cwd.head? = some '/')
    (hu : uri ≠ []) (ha : ¬ Absolute uri) (he : ex uri = true) :
    ∃ v, relativeUri ex cwd basedir uri = .ok v ∧
      place (place (place [] cwd) basedir) v = place (place [] cwd) uri := by
  obtain ⟨v, hv⟩ := relpath_ok cwd (start := basedir) hu
  exact ⟨v, by rw [(relativeUri_eq ex cwd basedir uri).2 ha he, hv], relpath_place hc hv⟩

/-- C117 for names of files whose places have no special characters. What is missing: the other
ones, and files that are named like addresses. -/
theorem C117_partial (ex : Str → Bool) (cwd basedir uri : Str) (hc : cwd.head? = some '/')
    (hu : uri ≠ []) (he : ex uri = true) (hs : ¬ "//".toList <+: uri) (hp : ∀ c ∈ uri, c ∉ linkSpecial)
    (hpl : ∀ n ∈ place (place [] cwd) uri, ∀ c ∈ n, c ∉ linkSpecial) :
    ∃ v, relativeUri ex cwd basedir uri = .ok v ∧
      follow (place (place [] cwd) basedir) (attrValue v) = some (place (place [] cwd) uri) := by
  by_cases ha : Absolute uri
  · refine ⟨uri, (relativeUri_eq ex cwd basedir uri).1 (.inl ha), ?_⟩
    rw [follow_plain _ ⟨hp, hs⟩]
    have hcol : ':' ∉ uri := fun h => hp _ h (by decide)
    rcases ha with ⟨t, rfl⟩ | ⟨t, rfl⟩ | ⟨t, rfl⟩ | ⟨t, rfl⟩
    · exact absurd (List.mem_append_left t (by decide)) hcol
    · exact absurd (List.mem_append_left t (by decide)) hcol
    · exact absurd (List.mem_append_left t (by decide)) hcol
    · have : ("/".toList ++ t).head? = some '/' := rfl
      simp only [place, this, if_true]
  · obtain ⟨v, h1, h2⟩ := C117_path ex cwd basedir uri hc hu ha he
    refine ⟨v, h1, ?_⟩
    rw [← h2]
    apply follow_plain
    rw [(relativeUri_eq ex cwd basedir uri).2 ha he] at h1
    obtain ⟨c1, c2⟩ := relpath_chars hc h1
    constructor
    · intro c hcv
      rcases c1 c hcv with rfl | rfl | ⟨n, hn, hcn⟩
      · decide
      · decide
      · exact hpl n hn c hcn
    · rintro ⟨t, rfl⟩
      exact c2 rfl

/-- C117: addresses, absolute names and what is no file stay as they were given. -/
theorem C117_unchanged (ex : Str → Bool) (cwd basedir uri : Str) (h : Absolute uri ∨ ex uri = false) :
    relativeUri ex cwd basedir uri = .ok uri :=
  (relativeUri_eq ex cwd basedir uri).1 h

example : relativeUri (fun _ => true) "/w".toList "rep/a".toList "css/x.css".toList =
    .ok "../../css/x.css".toList := by decide +kernel

/-! ### C118: the data of the HTML reports -/

/-- Any number of HTML formats set up with the same options. -/
def setupMany (copy : Str → Res (List Str)) : Nat → HtmlOpts → Res HtmlOpts
  | 0, o => .ok o
  | n + 1, o =>
    match htmlSetup copy o with
    | .error e => .error e
    | .ok o' => setupMany copy n o'

theorem htmlSetup_done (copy : Str → Res (List Str)) {o : HtmlOpts}
    (h : o.copied = true ∨ o.copyData = none ∨ o.copyData = some []) : htmlSetup copy o = .ok o := by
  unfold htmlSetup
  rcases h with h | h | h
  · split
    · rfl
    · rw [if_pos (by simp [h])]
  · rw [h]
  · rw [h]; simp

theorem setupMany_done (copy : Str → Res (List Str)) (n : Nat) {o : HtmlOpts}
    (h : o.copied = true ∨ o.copyData = none ∨ o.copyData = some []) : setupMany copy n o = .ok o := by
  induction n with
  | zero => rfl
  | succ n ih => simp only [setupMany]; rw [htmlSetup_done copy h]; exact ih

/-- C118: however many reports there are, the data is copied once, the scripts and style sheets that
were copied come first, each list in the order of the copies, and those that were given stay, in
order. -/
theorem C118_once (copy : Str → Res (List Str)) (n : Nat) (o : HtmlOpts) (dir : Str) (fs : List Str)
    (hd : o.copyData = some dir) (hne : dir ≠ []) (hc : o.copied = false) (hf : copy dir = .ok fs) :
    ∃ o', setupMany copy (n + 1) o = .ok o' ∧ htmlSetup copy o = .ok o' ∧ o'.copied = true ∧
      o'.copyData = o.copyData ∧
      (∃ js, o'.javascripts = js ++ o.javascripts ∧ js.Sublist fs ∧
        ∀ f ∈ fs, f ∈ js ↔ ".js".toList <:+ f) ∧
      ∃ css, o'.stylesheets = css ++ o.stylesheets ∧ css.Sublist fs ∧
        ∀ f ∈ fs, f ∈ css ↔ ".css".toList <:+ f := by
  have h1 : htmlSetup copy o = .ok { o with
      javascripts := fs.filter (fun f => endsWith f ".js".toList) ++ o.javascripts
      stylesheets := fs.filter (fun f => !endsWith f ".js".toList && endsWith f ".css".toList) ++
        o.stylesheets
      copied := true } := by
    unfold htmlSetup
    rw [hd]
    simp only [hc, Bool.false_or]
    rw [if_neg (by simpa using hne), hf]
  have hend : ∀ f x : Str, endsWith f x = true ↔ x <:+ f := by
    intro f x
    simp [endsWith, List.isSuffixOf_iff_suffix]
  refine ⟨_, ?_, h1, rfl, rfl, ⟨_, rfl, List.filter_sublist, ?_⟩, ⟨_, rfl, List.filter_sublist, ?_⟩⟩
  · simp only [setupMany, h1]
    exact setupMany_done copy n (.inl rfl)
  · intro f hf
    rw [List.mem_filter, hend]
    exact ⟨fun h => h.2, fun h => ⟨hf, h⟩⟩
  · intro f hf
    rw [List.mem_filter, Bool.and_eq_true, hend]
    refine ⟨fun h => h.2.2, fun h => ⟨hf, ?_, h⟩⟩
    rw [Bool.not_eq_true', Bool.eq_false_iff, ne_eq, hend]
    intro h'
    have : ".js".toList.length ≤ ".css".toList.length := by decide
    exact absurd (List.suffix_of_suffix_length_le h' h this) (by decide)

/-- C118: without a directory nothing is copied. -/
theorem C118_none (copy : Str → Res (List Str)) (n : Nat) (o : HtmlOpts)
    (h : o.copied = true ∨ o.copyData = none ∨ o.copyData = some []) : setupMany copy n o = .ok o :=
  setupMany_done copy n h

example : setupMany (fun d => .ok [pathJoin d "a.js".toList, pathJoin d "b.css".toList, pathJoin d "c.png".toList])
    3 { copyData := some "data".toList, stylesheets := ["my.css".toList] } =
    .ok { copyData := some "data".toList, copied := true, javascripts := ["data/a.js".toList],
          stylesheets := ["data/b.css".toList, "my.css".toList] } := by decide

end Javatools
