import Verif.Props.Attrs
import Verif.Props.JarInfoCli
import Verif.Props.JsonData
import Verif.Props.Report
import Verif.Props.VerifyCli
/-!
For exactly which inputs C83, C97, C111, C124 and C133 hold.
-/

namespace Javatools

/-! ### C111: the formats a reporter writes -/

/-- There is an instance when a `setup` with a format is pending. -/
def HasInst (r : Reporter) : Prop := ∃ i is, r.instances = some (i :: is)

theorem setup_has {cwd : Str} {r : Reporter} (h : HasInst r) : r.setup cwd = .ok r := by
  obtain ⟨i, is, e⟩ := h
  unfold Reporter.setup
  rw [e]

theorem setup_hasnt {cwd : Str} {r : Reporter} (h : ¬ HasInst r) (hc : ∀ c ∈ r.crumbs, c.1 ≠ []) :
    ∃ cs, r.setup cwd = .ok { r with instances := some (r.formats.map fun f => ⟨f, r.basedir, cs⟩) } := by
  obtain ⟨cs, e⟩ := relativeCrumbs_ok cwd r.basedir r.crumbs hc
  refine ⟨cs, ?_⟩
  unfold Reporter.setup
  split
  · rename_i e
    exact absurd ⟨_, _, e⟩ h
  · rw [e]

/-- The instances are those of the formats there were at the first pending `setup` that had any, or else at
the last. -/
theorem pending_instances (cwd : Str) (r : Reporter) (calls : List ReporterCall)
    (hc : ∀ c ∈ r.crumbs, c.1 ≠ []) (h0 : r.instances = none) :
    ∀ is, (calls.foldl (Reporter.call cwd) r).instances = some is →
      ∃ a b, calls = a ++ .setup :: b ∧ .run ∉ b ∧ .clear ∉ b ∧ (is = [] → .setup ∉ b) ∧
        ¬ HasInst (a.foldl (Reporter.call cwd) r) ∧
        is.map (fun i => i.fmt) = (a.foldl (Reporter.call cwd) r).formats := by
  induction hn : calls.length generalizing calls with
  | zero =>
    rw [List.eq_nil_of_length_eq_zero hn]
    intro is his
    rw [List.foldl_nil, h0] at his
    cases his
  | succ n ih =>
    rcases List.eq_nil_or_concat calls with rfl | ⟨cs, c, rfl⟩
    · simp at hn
    · rw [List.concat_eq_append] at hn ⊢
      have ih' := ih cs (by simpa using hn)
      rw [List.foldl_append]
      have hk := (calls_kept cwd r cs hc).1
      have hgo : ∀ is, (cs.foldl (Reporter.call cwd) r).instances = some is → c ≠ .run → c ≠ .clear →
          (is = [] → c ≠ .setup) →
          ∃ a b, cs ++ [c] = a ++ .setup :: b ∧ .run ∉ b ∧ .clear ∉ b ∧ (is = [] → .setup ∉ b) ∧
            ¬ HasInst (a.foldl (Reporter.call cwd) r) ∧
            is.map (fun i => i.fmt) = (a.foldl (Reporter.call cwd) r).formats := by
        intro is h h1 h2 h3
        obtain ⟨a, b, rfl, hr, hcl, hs, hi, hf⟩ := ih' is h
        exact ⟨a, b ++ [c], by simp, by simp [hr, Ne.symm h1], by simp [hcl, Ne.symm h2],
          fun e => by simp [hs e, Ne.symm (h3 e)], hi, hf⟩
      simp only [List.foldl_cons, List.foldl_nil]
      have hc1 : ∀ c ∈ (cs.foldl (Reporter.call cwd) r).crumbs, c.1 ≠ [] := by rw [hk.crumbs]; exact hc
      intro is his
      cases c with
      | setup =>
        by_cases e : HasInst (cs.foldl (Reporter.call cwd) r)
        · simp only [Reporter.call, setup_has e] at his
          refine hgo is his (by simp) (by simp) ?_
          rintro rfl
          obtain ⟨i, is, e⟩ := e
          rw [e] at his
          cases his
        · refine ⟨cs, [], by simp, by simp, by simp, by simp, e, ?_⟩
          obtain ⟨ps, h2⟩ := setup_hasnt (cwd := cwd) e hc1
          simp only [Reporter.call, h2, Option.some.injEq] at his
          subst his
          rw [List.map_map]
          exact List.map_id _
      | run =>
        obtain ⟨out, e⟩ := run_eq cwd _ hc1
        simp only [Reporter.call, e] at his
        cases his
      | clear => cases his
      | add f =>
        refine hgo is ?_ (by simp) (by simp) (by simp)
        simp only [Reporter.call, Reporter.addFormat] at his
        split at his <;> exact his

/-- A `setup` without a `run` or `clear` after it is pending. -/
theorem pending_some (cwd : Str) (r : Reporter) (a b : List ReporterCall)
    (hc : ∀ c ∈ r.crumbs, c.1 ≠ []) (hr : .run ∉ b) (hcl : .clear ∉ b) :
    ((a ++ .setup :: b).foldl (Reporter.call cwd) r).instances ≠ none ∧
    ((a.foldl (Reporter.call cwd) r).formats ≠ [] →
      HasInst ((a ++ .setup :: b).foldl (Reporter.call cwd) r)) := by
  rw [List.foldl_append, List.foldl_cons]
  have hk := (calls_kept cwd r a hc).1
  generalize a.foldl (Reporter.call cwd) r = r1 at hk
  have hc1 : ∀ c ∈ r1.crumbs, c.1 ≠ [] := by rw [hk.crumbs]; exact hc
  have h1 : (r1.call cwd .setup).instances ≠ none ∧ (r1.formats ≠ [] → HasInst (r1.call cwd .setup)) := by
    by_cases e : HasInst r1
    · simp only [Reporter.call, setup_has e]
      obtain ⟨i, is, e2⟩ := id e
      exact ⟨by simp [e2], fun _ => e⟩
    · obtain ⟨ps, h2⟩ := setup_hasnt (cwd := cwd) e hc1
      simp only [Reporter.call, h2]
      refine ⟨by simp, fun hf => ?_⟩
      cases hfs : r1.formats with
      | nil => exact absurd hfs hf
      | cons f fs => exact ⟨_, _, rfl⟩
  have hc2 : ∀ c ∈ (r1.call cwd .setup).crumbs, c.1 ≠ [] := by
    rw [(call_kept cwd r1 .setup hc1).1.crumbs]; exact hc1
  generalize r1.call cwd .setup = r2 at h1 hc2
  clear hk hc1
  induction b generalizing r2 with
  | nil => exact h1
  | cons c b ih =>
    simp only [List.mem_cons, not_or] at hr hcl
    rw [List.foldl_cons]
    refine ih hr.2 hcl.2 _ ?_ (by rw [(call_kept cwd r2 c hc2).1.crumbs]; exact hc2)
    cases c with
    | run => exact absurd rfl hr.1
    | clear => exact absurd rfl hcl.1
    | setup =>
      by_cases e : HasInst r2
      · simp only [Reporter.call, setup_has e]
        exact h1
      · obtain ⟨ps, h2⟩ := setup_hasnt (cwd := cwd) e hc2
        simp only [Reporter.call, h2]
        exact ⟨by simp, fun hf => absurd (h1.2 hf) e⟩
    | add f =>
      simp only [Reporter.call, Reporter.addFormat]
      split <;> exact h1

/-- C111, for exactly which calls: those where every format that is added while a `setup` waits for its `run`
or `clear` was there before that `setup`. A `setup` without any format is waiting only until the next. -/
theorem C111_exact (cwd : Str) (r : Reporter) (calls : List ReporterCall) (h0 : r.instances = none)
    (hf : r.formats.Nodup) (hc : ∀ c ∈ r.crumbs, c.1 ≠ []) :
    (∃ out r', (calls.foldl (Reporter.call cwd) r).run cwd = .ok (out, r') ∧
      (out.map fun p => p.1.fmt).Nodup ∧
      ∀ f, f ∈ (out.map fun p => p.1.fmt) ↔ f ∈ r.formats ∨ .add f ∈ calls) ↔
    ∀ a b, calls = a ++ .setup :: b → .run ∉ b → .clear ∉ b →
      (.setup ∈ b → r.formats ≠ [] ∨ ∃ g, .add g ∈ a) →
      ∀ f, .add f ∈ b → f ∈ r.formats ∨ .add f ∈ a := by
  obtain ⟨hk, hm, hnd⟩ := calls_kept cwd r calls hc
  have hc1 : ∀ c ∈ (calls.foldl (Reporter.call cwd) r).crumbs, c.1 ≠ [] := by rw [hk.crumbs]; exact hc
  cases e : (calls.foldl (Reporter.call cwd) r).instances with
  | none =>
    constructor
    · rintro _ a b rfl hr hcl
      exact absurd e (pending_some cwd r a b hc hr hcl).1
    · intro _
      have key : ∃ out r', (calls.foldl (Reporter.call cwd) r).run cwd = .ok (out, r') ∧
          (out.map fun p => p.1.fmt) = (calls.foldl (Reporter.call cwd) r).formats := by
        generalize calls.foldl (Reporter.call cwd) r = r1 at e hc1
        unfold Reporter.run
        obtain ⟨cs, h2⟩ := setup_hasnt (cwd := cwd) (r := r1)
          (by rintro ⟨i, is, h⟩; rw [e] at h; cases h) hc1
        simp only [e, h2]
        refine ⟨_, _, rfl, ?_⟩
        simp only [List.map_map, Option.getD_some]
        exact List.map_id _
      obtain ⟨out, r', h1, h2⟩ := key
      exact ⟨out, r', h1, by rw [h2]; exact hnd hf, by rw [h2]; exact hm⟩
  | some is =>
    obtain ⟨a, b, rfl, hr, hcl, hs, hi, hfm⟩ := pending_instances cwd r calls hc h0 is e
    obtain ⟨_, hma, hnda⟩ := calls_kept cwd r a hc
    have hrun : ∃ out r', ((a ++ .setup :: b).foldl (Reporter.call cwd) r).run cwd = .ok (out, r') ∧
        (out.map fun p => p.1.fmt) = (a.foldl (Reporter.call cwd) r).formats := by
      unfold Reporter.run
      simp only [e]
      refine ⟨_, _, rfl, ?_⟩
      rw [← hfm, List.map_map]
      rfl
    obtain ⟨out, r', ho, hfs⟩ := hrun
    have hne : ∀ (a : List ReporterCall), (a.foldl (Reporter.call cwd) r).formats ≠ [] ↔
        r.formats ≠ [] ∨ ∃ g, .add g ∈ a := by
      intro a
      have h := (calls_kept cwd r a hc).2.1
      constructor
      · intro hn
        obtain ⟨f, hf⟩ := List.exists_mem_of_ne_nil _ hn
        rcases (h f).1 hf with h1 | h1
        · exact .inl (List.ne_nil_of_mem h1)
        · exact .inr ⟨f, h1⟩
      · rintro (h1 | ⟨g, h1⟩)
        · obtain ⟨f, hf⟩ := List.exists_mem_of_ne_nil _ h1
          exact List.ne_nil_of_mem ((h f).2 (.inl hf))
        · exact List.ne_nil_of_mem ((h g).2 (.inr h1))
    constructor
    · rintro ⟨out', r'', ho', _, hall⟩ a' b' hab hr' hcl' hs' f hfb
      rw [ho] at ho'
      obtain ⟨rfl, rfl⟩ := Prod.mk.inj (Except.ok.inj ho')
      have h1 : f ∈ r.formats ∨ .add f ∈ a := by
        rw [← hma, ← hfs, hall]
        right
        rw [hab]
        simp [hfb]
      rcases List.append_eq_append_iff.1 hab with ⟨c, rfl, _⟩ | ⟨c, rfl, h2⟩
      · rcases h1 with h1 | h1
        · exact .inl h1
        · exact .inr (by simp [h1])
      · cases c with
        | nil => simpa using h1
        | cons x c =>
          simp only [List.cons_append, List.cons.injEq] at h2
          obtain ⟨rfl, h2⟩ := h2
          refine absurd ((pending_some cwd r a' c hc ?_ ?_).2 ((hne a').2 (hs' ?_))) hi
          · intro h; apply hr'; rw [h2]; simp [h]
          · intro h; apply hcl'; rw [h2]; simp [h]
          · rw [h2]; simp
    · intro h
      refine ⟨out, r', ho, by rw [hfs]; exact hnda hf, ?_⟩
      intro f
      rw [hfs, hma]
      have := h a b rfl hr hcl (fun hsb => (hne a).1 (by
        rw [← hfm]
        intro h
        exact hs (by simpa using h) hsb)) f
      constructor
      · rintro (h1 | h1)
        · exact .inl h1
        · exact .inr (by simp [h1])
      · rintro (h1 | h1)
        · exact .inl h1
        · rcases List.mem_append.1 h1 with h1 | h1
          · exact .inr h1
          · rcases List.mem_cons.1 h1 with h1 | h1
            · cases h1
            · exact this h1

/-- A format added after a `setup` without any is written when there is a second `setup`. -/
example : ((([ReporterCall.setup, .add .json, .setup].foldl (Reporter.call [])
    { basedir := [], entry := [] }).run []).map fun p => p.1.map fun q => q.1.fmt) = .ok [Fmt.json] := by decide

/-- With a format before the first `setup`, the second does not help. -/
example : ((([ReporterCall.add .html, .setup, .add .json, .setup].foldl (Reporter.call [])
    { basedir := [], entry := [] }).run []).map fun p => p.1.map fun q => q.1.fmt) = .ok [Fmt.html] := by decide

/-- A format that was there before may be added again. -/
example : ∃ out r', ([ReporterCall.add .html, .setup, .add .html].foldl (Reporter.call [])
      { basedir := [], entry := [] }).run [] = .ok (out, r') ∧ (out.map fun p => p.1.fmt).Nodup ∧
    ∀ f, f ∈ (out.map fun p => p.1.fmt) ↔ f ∈ [] ∨ .add f ∈ [ReporterCall.add .html, .setup, .add .html] :=
  (C111_exact [] { basedir := [], entry := [] } [.add .html, .setup, .add .html] rfl (by simp) (by simp)).2
    (by
      intro a b h
      rcases a with _ | ⟨_, _ | ⟨_, _ | ⟨_, a⟩⟩⟩ <;> simp at h
      obtain ⟨rfl, rfl⟩ := h
      simp)

/-! ### C124: the JSON document of `jarinfo` -/

/-- C124, for exactly which reports: those where, if there is a JSON document, the parts that only the text has
can be printed too. -/
theorem C124_exact (E : PrintEnv) (pct : Nat → Nat → Str) (o : JarArgs) (f : JarFile) :
    ((jarReport E pct o f).2 = none ↔ ∃ doc, jarJson E.lim o f = .ok doc) ↔
    ((∃ doc, jarJson E.lim o f = .ok doc) →
      (o.manifest = true → (jarReport E pct { manifest := true, info := o.info } f).2 = none) ∧
      (o.classes = true → (jarReport E pct { classes := true, info := o.info } f).2 = none)) := by
  have h1 := C124_partial E pct { o with manifest := false, classes := false } f rfl rfl
  rw [C124_dropped, C121_parts, seqOut_none] at h1
  rw [C121_parts, seqOut_none]
  simp only [List.mem_cons, List.not_mem_nil, or_false, forall_eq_or_imp, forall_eq, onlyIf_false, and_true,
    true_and] at h1 ⊢
  rw [← h1]
  have hif : ∀ (b : Bool) (x : Out), (onlyIf b x).2 = none ↔ (b = true → x.2 = none) := by
    intro b x
    cases b <;> simp
  rw [hif o.manifest, hif o.classes]
  constructor
  · intro h h2
    have := h.2 h2
    exact ⟨this.2.1, this.2.2.2.2⟩
  · intro h
    constructor
    · rintro ⟨a, _, b, c, _⟩; exact ⟨a, b, c⟩
    · intro h2
      have := h h2
      exact ⟨h2.1, this.1, h2.2.1, h2.2.2, this.2⟩


/-- The document of a file that is no archive can be without a fault, and the text as well, unless it shows
the manifest. -/
example : let f : JarFile := { archive := .error .keyError, zip := .ok [] }
    (∃ doc, jarJson 9 {} f = .ok doc) ∧ (jarReport listEnv (fun _ _ => []) {} f).2 = none ∧
    (jarReport listEnv (fun _ _ => []) { manifest := true } f).2 ≠ none :=
  ⟨⟨{}, rfl⟩, by decide +kernel, by decide +kernel⟩

/-! ### C133: code as JSON -/

set_option synthInstance.maxSize 1000

/-- C133, for exactly which code: the code of both sides can be disassembled, and, if both have the same
instructions up to their operands, each constant that differs has a text. -/
theorem C133_exact {fmt repr : PVal → Str} {lp rp : Pool} {lim : Nat} {l r : CodeInfo}
    (hc : ∃ p, codeConstantsCheck lp rp lim (some l) (some r) = .ok p) :
    ((∃ d, constantsData fmt repr lp rp lim (some l) (some r) = .ok d) ∧
      ∃ d, bodyData (some l) (some r) = .ok d) ↔
    (disassemble l.code).2 = none ∧ (disassemble r.code).2 = none ∧
    ∀ offs, codeConstantsOffsets lp rp lim (some l) (some r) = .ok (some offs) →
      ∀ i j, Differing lp rp lim l r i j → hasConstArg i.code = .ok true →
        (∃ row, constRow fmt repr lp lim i = .ok row) ∧ ∃ row, constRow fmt repr rp lim j = .ok row := by
  have hb : (∃ d, bodyData (some l) (some r) = .ok d) ↔
      (disassemble l.code).2 = none ∧ (disassemble r.code).2 = none := by
    rw [← (C133_body l).2, ← (C133_body r).2]
    unfold bodyData sideData
    cases bodyPretty (some l) <;> cases bodyPretty (some r) <;> simp
  rw [hb]
  cases ho : codeConstantsOffsets lp rp lim (some l) (some r) with
  | error e =>
    obtain ⟨p, hp⟩ := hc
    rw [codeConstantsOffsets] at ho
    rw [codeConstantsCheck] at hp
    split at ho
    · cases ho
    · rename_i hne
      rw [if_neg hne, ho] at hp
      cases hp
  | ok x =>
    have hnone : ∀ x, (x = none ∨ x = some []) → codeConstantsOffsets lp rp lim (some l) (some r) = .ok x →
        ∃ d, constantsData fmt repr lp rp lim (some l) (some r) = .ok d := by
      intro x hx h
      unfold constantsData
      rw [h]
      rcases hx with rfl | rfl <;> exact ⟨_, rfl⟩
    cases x with
    | none =>
      have := hnone none (.inl rfl) ho
      simp [this]
    | some offs =>
      by_cases he : offs = []
      · subst he
        have h1 := hnone (some []) (.inr rfl) ho
        obtain ⟨s1, -, -⟩ := offsets_sides ho
        constructor
        · rintro ⟨_, h2, h3⟩
          refine ⟨h2, h3, ?_⟩
          intro offs _ i j hd
          have := (s1 i hd.mem.1).2 ⟨j, hd⟩
          simp at this
        · rintro ⟨h2, h3, _⟩
          exact ⟨h1, h2, h3⟩
      · rw [C133_constants ho he]
        constructor
        · rintro ⟨⟨h1, h2, h3⟩, _⟩
          exact ⟨h1, h2, fun _ _ => h3⟩
        · rintro ⟨h1, h2, h3⟩
          exact ⟨⟨h1, h2, h3 offs rfl⟩, h1, h2⟩

/-- Both changes of this code can be written, so the constants that differ have texts. -/
example : ∀ offs, codeConstantsOffsets
      [none, some (.integer 7), some (.string 3), some (.utf8 "a".toList)]
      [none, some (.string 2), some (.utf8 "b".toList), some (.integer 7)] 5
      (some (codeOf [.fixed 0x12 [1], .fixed 0x10 [1], .fixed 0x12 [2]]))
      (some (codeOf [.fixed 0x12 [3], .fixed 0x10 [2], .fixed 0x12 [1]])) = .ok (some offs) →
    ∀ i j, Differing
      [none, some (.integer 7), some (.string 3), some (.utf8 "a".toList)]
      [none, some (.string 2), some (.utf8 "b".toList), some (.integer 7)] 5
      (codeOf [.fixed 0x12 [1], .fixed 0x10 [1], .fixed 0x12 [2]])
      (codeOf [.fixed 0x12 [3], .fixed 0x10 [2], .fixed 0x12 [1]]) i j → hasConstArg i.code = .ok true →
    (∃ row, constRow (fun _ => []) (fun _ => [])
      [none, some (.integer 7), some (.string 3), some (.utf8 "a".toList)] 5 i = .ok row) ∧
    ∃ row, constRow (fun _ => []) (fun _ => [])
      [none, some (.string 2), some (.utf8 "b".toList), some (.integer 7)] 5 j = .ok row :=
  ((C133_exact ⟨(true, none), by decide +kernel⟩).1
    ⟨⟨(some [(4, "ldc".toList, .str "a".toList)], some [(4, "ldc".toList, .str "b".toList)]),
      by decide +kernel⟩, ⟨(some [(0, "ldc".toList, .ints [1]), (2, "bipush".toList, .ints [1]),
        (4, "ldc".toList, .ints [2])], some [(0, "ldc".toList, .ints [3]), (2, "bipush".toList, .ints [2]),
        (4, "ldc".toList, .ints [1])]), by decide +kernel⟩⟩).2.2

/-! ### C97: the status of `jarutil v` -/

/-- C97, for exactly which archives: the command ends with a status exactly if checking the signature ends with
acceptance, one of the refusals, or the missing library. -/
theorem C97_exact {up : Char → Str} (C : Crypto) (H : Hashes) (files : Str → Res Zip) (args : List Str)
    (jar cert : Str) (name : Option Str) (z : Zip) (ha : VerifyArgs args jar cert name)
    (hz : files jar = .ok z) :
    (∃ n, cliVerify up C H files args = .ok n) ↔
      ∀ e, verify up C H cert z name = .error e → Refusal e ∨ e = .other "CryptoDisabled" := by
  obtain ⟨h1, h2, h3, h4⟩ := C97_status (up := up) C H files args jar cert name z ha hz
  cases hv : verify up C H cert z name with
  | ok u => simp [h1 hv]
  | error e =>
    by_cases hr : Refusal e
    · simp [h2 e hv hr, hr]
    · by_cases hd : e = .other "CryptoDisabled"
      · simp [h3 e hv hd, hd]
      · simp [h4 e hv hr hd, hr, hd]

/-- A signed archive with an entry that is not recorded is refused with one of the refusals. -/
example : ∀ e, verify upLongS echoCrypto idHashes [] (exJar [("b".toList, [1])]) none = .error e →
    Refusal e ∨ e = .other "CryptoDisabled" :=
  (C97_exact echoCrypto idHashes (fun _ => .ok (exJar [("b".toList, [1])])) [[], []] [] [] none _
    (.inl ⟨rfl, rfl⟩) rfl).1 ⟨1, by decide +kernel⟩

/-! ### C83: the text of a constant -/

section
open Spec

/-- The text of a field type. -/
def FieldText (t : Str) : Prop := ∃ T : JType, T.Names NoSemi ∧ t = T.desc

/-- The text of the types of a method. -/
def MethodText (t : Str) : Prop := ∃ (args : List JType) (ret : Option JType),
  (∀ t ∈ args, t.Names fun n => ')' ∉ n ∧ ';' ∉ n) ∧ (∀ t, ret = some t → t.Names NoSemi) ∧ t = methodDesc args ret

/-- JVMS 4.4.2 and 4.4.6: a field reference has the type of a field, a method reference has that of a method,
and a name and type has either. -/
structure ProperTypes (pool : Pool) : Prop where
  field : ∀ {i a b n t : _}, pool[(i : Nat)]? = some (some (.fieldref a b)) → NameTypeAt pool b n t → FieldText t
  method : ∀ {i a b n t : _}, pool[(i : Nat)]? = some (some (.methodref a b)) ∨
    pool[i]? = some (some (.ifaceMethodref a b)) → NameTypeAt pool b n t → MethodText t
  either : ∀ {i n t : _}, NameTypeAt pool i n t → FieldText t ∨ MethodText t

/-- C83, for exactly which constants: in a pool as it should be, those that are no method handle, method type,
module or package. -/
theorem C83_exact (fmt repr : PVal → Str) (hfmt : ∀ s, fmt (.str s) = s) (pool : Pool) (hw : WellTyped pool)
    (hp : ProperTypes pool) (i : Nat) (c : Const) (hc : pool[i]? = some (some c)) :
    (∃ lim v, prettyDerefConst fmt repr pool lim i = .ok v) ↔
      (∀ k n, c ≠ .methodHandle k n) ∧ (∀ n, c ≠ .methodType n) ∧ (∀ n, c ≠ .module n) ∧ ∀ n, c ≠ .package n := by
  constructor
  · rintro ⟨lim, v, h⟩
    obtain ⟨h1, h2, h3, h4, -, -⟩ := C83_others fmt repr pool lim i
    refine ⟨?_, ?_, ?_, ?_⟩
    · rintro k n rfl; rw [h4 k n hc] at h; cases h
    · rintro n rfl; rw [h1 n hc] at h; cases h
    · rintro n rfl; rw [h2 n hc] at h; cases h
    · rintro n rfl; rw [h3 n hc] at h; cases h
  · rintro ⟨n1, n2, n3, n4⟩
    have key : ∃ v, ConstShows fmt repr pool c v := by
      obtain ⟨v, hv⟩ := hw.2 i c hc
      cases c with
      | utf8 s => exact ⟨_, .utf8⟩
      | integer s => exact ⟨_, .integer⟩
      | float s => exact ⟨_, .float⟩
      | long s => exact ⟨_, .long⟩
      | double s => exact ⟨_, .double⟩
      | cls n => obtain ⟨s, h, _⟩ := hv; exact ⟨_, .cls h⟩
      | string n => obtain ⟨s, h, _⟩ := hv; exact ⟨_, .string h⟩
      | fieldref a b =>
        obtain ⟨c, n, t, h1, h2, _⟩ := hv
        obtain ⟨T, hT, rfl⟩ := hp.field hc h2
        exact ⟨_, .field h1 h2⟩
      | methodref a b =>
        obtain ⟨c, n, t, h1, h2, _⟩ := hv
        obtain ⟨args, ret, ha, hr, rfl⟩ := hp.method (.inl hc) h2
        exact ⟨_, .method ha hr h1 h2⟩
      | ifaceMethodref a b =>
        obtain ⟨c, n, t, h1, h2, _⟩ := hv
        obtain ⟨args, ret, ha, hr, rfl⟩ := hp.method (.inr hc) h2
        exact ⟨_, .ifaceMethod ha hr h1 h2⟩
      | nameAndType a b =>
        obtain ⟨n, t, h1, h2, _⟩ := hv
        rcases hp.either ⟨a, b, hc, h1, h2⟩ with ⟨T, hT, rfl⟩ | ⟨args, ret, ha, hr, rfl⟩
        · exact ⟨_, .fieldNameType hT h1 h2⟩
        · exact ⟨_, .methodNameType ha hr h1 h2⟩
      | moduleId a b => obtain ⟨n, t, h1, h2, _⟩ := hv; exact ⟨_, .moduleId h1 h2⟩
      | methodHandle k n => exact absurd rfl (n1 k n)
      | methodType n => exact absurd rfl (n2 n)
      | dynamic a b => obtain ⟨n, t, h, _⟩ := hv; exact ⟨_, .dynamic h⟩
      | invokeDynamic a b => obtain ⟨n, t, h, _⟩ := hv; exact ⟨_, .invokeDynamic h⟩
      | module n => exact absurd rfl (n3 n)
      | package n => exact absurd rfl (n4 n)
    obtain ⟨v, hv⟩ := key
    exact ⟨2, v, C83_pretty_deref_partial fmt repr hfmt pool hw.1 0 i c v hc hv⟩

def fieldPool : Pool := [none, some (.fieldref 2 4), some (.cls 3), some (.utf8 ['C']), some (.nameAndType 5 6),
  some (.utf8 ['x']), some (.utf8 ['I'])]

/-- The field `x` of `C` has a text. -/
example : WellTyped fieldPool ∧ ProperTypes fieldPool ∧
    prettyDerefConst (fun v => match v with | .str s => s | _ => []) (fun _ => []) fieldPool 2 1 =
      .ok (.str "C.x:int".toList) := by
  have hnt : ∀ {i n t}, NameTypeAt fieldPool i n t → t = ['I'] := by
    rintro i n t ⟨a, b, h, _, h2⟩
    match i, h with
    | 4, h => cases h; cases h2; rfl
    | n + 7, h => simp [fieldPool] at h
  have hI : FieldText ['I'] := ⟨.prim .int, trivial, rfl⟩
  refine ⟨⟨rfl, ?_⟩, ⟨?_, ?_, ?_⟩, by decide +kernel⟩
  · intro i c hc
    match i, hc with
    | 1, hc => cases hc; exact ⟨_, ['C'], ['x'], ['I'], ⟨3, rfl, rfl⟩, ⟨5, 6, rfl, rfl, rfl⟩, rfl⟩
    | 2, hc => cases hc; exact ⟨_, ['C'], rfl, rfl⟩
    | 3, hc => cases hc; exact ⟨_, rfl⟩
    | 4, hc => cases hc; exact ⟨_, ['x'], ['I'], rfl, rfl, rfl⟩
    | 5, hc => cases hc; exact ⟨_, rfl⟩
    | 6, hc => cases hc; exact ⟨_, rfl⟩
    | n + 7, hc => simp [fieldPool] at hc
  · intro i a b n t _ h; rw [hnt h]; exact hI
  · intro i a b n t h _
    exfalso
    match i, h with
    | 0, h => simp [fieldPool] at h
    | 1, h => simp [fieldPool] at h
    | 2, h => simp [fieldPool] at h
    | 3, h => simp [fieldPool] at h
    | 4, h => simp [fieldPool] at h
    | 5, h => simp [fieldPool] at h
    | 6, h => simp [fieldPool] at h
    | n + 7, h => simp [fieldPool] at h
  · intro i n t h; rw [hnt h]; exact .inl hI

end

end Javatools
