import Verif.Props.DistMp
import Verif.Props.Zip
import Verif.Props.DistDiff
import Verif.Props.ManifestCli2
import Verif.Props.VerifyExact
import Verif.Props.Info
import Verif.Props.ClassInfoCli
import Verif.Props.JsonData

/-!
More of the inputs for which properties hold that do not hold for all.
-/

namespace Javatools

open Spec

/-! ## C55 -/

theorem compareLeft_raises {l r : Archive} {rl fs : List Str} (h1 : [] ∈ rl) (h2 : [] ∈ fs) :
    ∃ e, (compareLeft l r rl fs).2 = some e := by
  induction fs with
  | nil => simp at h2
  | cons f fs ih =>
    have hgo : ∀ ev : List (Event × Str), f ≠ [] →
        ∃ e, (match compareLeft l r rl fs with | (evs, e) => (ev ++ evs, e)).2 = some e := by
      intro ev hf
      obtain ⟨e, he⟩ := ih (by
        rcases List.mem_cons.1 h2 with h | h
        · exact absurd h.symm hf
        · exact h)
      exact ⟨e, he⟩
    simp only [compareLeft]
    by_cases hf : f = []
    · subst hf
      simp [h1]
    · have hl : f.getLast? ≠ none := by simpa [List.getLast?_eq_none_iff] using hf
      split
      · split
        · rename_i h; exact absurd h hl
        · exact hgo _ hf
        · split
          · exact ⟨_, rfl⟩
          · exact hgo _ hf
          · exact hgo _ hf
      · exact hgo _ hf

/-- C55, for exactly which archive files: those that do not both have an entry with the empty name. -/
theorem C55_exact (order : List Str → List Str) (l r : Archive) (ho : IsSetOrder order)
    (hl : l.closed = false) (hr : r.closed = false) (hcl : Consistent l) (hcr : Consistent r)
    (hzl : l.exploded = false) (hzr : r.exploded = false) :
    (∃ evs g, compareZips order l r = (evs, none) ∧ Partition l r evs ∧
      collectZips order l r = .ok g ∧ Grouped evs g) ↔ ¬ ([] ∈ names l ∧ [] ∈ names r) := by
  constructor
  · rintro ⟨evs, g, h, _⟩ ⟨h1, h2⟩
    have hln : l.namelist = .ok (names l) := by simp [Archive.namelist, hzl, names]
    have hrn : r.namelist = .ok (names r) := by simp [Archive.namelist, hzr, names]
    obtain ⟨e, he⟩ := compareLeft_raises (l := l) (r := r) h2 (((ho (names l)).2 []).2 h1)
    simp only [compareZips, hln, hrn] at h
    split at h
    · simp at h
    · rename_i h'
      rw [h'] at he
      cases he
  · exact C55_partial order l r ho hl hr hcl hcr hzl hzr

/-! ## C62 -/

variable {C : Type} (J : Jobs C)

/-- A run can be continued until nothing more can happen. -/
theorem mp_stuck_exists (P : Int) (cs : List C) (s : MpState C) (h : MpReach J P cs s) :
    ∃ s', MpReach J P cs s' ∧ ∀ t, ¬ MpStep J (enqueued J 0 cs).length s' t := by
  generalize hw : s.weight (enqueued J 0 cs).length = w
  induction w using Nat.strongRecOn generalizing s with
  | ind w ih =>
    by_cases hn : ∃ t, MpStep J (enqueued J 0 cs).length s t
    · obtain ⟨t, ht⟩ := hn
      exact ih _ (by rw [← hw]; exact C62_finite J _ _ _ ht) t (h.step ht) rfl
    · exact ⟨s, h, fun t ht => hn ⟨t, ht⟩⟩

/-- When nothing more can happen, the main process has ended, has failed or waits for a result. -/
theorem mp_stuck_main {count : Nat} {s : MpState C} (hn : ∀ t, ¬ MpStep J count s t) :
    (∃ c, s.main = .done c) ∨ (∃ e, s.main = .failed e) ∨ ∃ k, s.main = .getting (k + 1) := by
  obtain ⟨main, tasks, workers, results, changes, begun⟩ := s
  cases main with
  | done c => exact .inl ⟨c, rfl⟩
  | failed e => exact .inr (.inl ⟨e, rfl⟩)
  | starting k =>
    cases k with
    | zero => exact absurd (.started ..) (hn _)
    | succ k => exact absurd (.start ..) (hn _)
  | checking i =>
    cases hc : changes[i]? with
    | none => exact absurd (.checked _ _ _ _ _ _ hc) (hn _)
    | some o =>
      cases o with
      | none => exact absurd (.skip _ _ _ _ _ _ hc) (hn _)
      | some x =>
        cases hx : J.check x with
        | ok x' => exact absurd (.check _ _ _ _ _ _ _ _ hc hx) (hn _)
        | error e => exact absurd (.checkFails _ _ _ _ _ _ _ _ hc hx) (hn _)
  | getting k =>
    cases k with
    | succ k => exact .inr (.inr ⟨k, rfl⟩)
    | zero =>
      by_cases hm : none ∈ changes
      · exact absurd (.finishFails _ _ _ _ _ hm) (hn _)
      · have hall : ∀ (l : List (Option C)), none ∉ l → ∃ xs : List C, l = xs.map some := by
          intro l
          induction l with
          | nil => exact fun _ => ⟨[], rfl⟩
          | cons a l ih =>
            intro hnl
            simp only [List.mem_cons, not_or] at hnl
            obtain ⟨xs, hxs⟩ := ih hnl.2
            cases a with
            | none => exact absurd rfl hnl.1
            | some a => exact ⟨a :: xs, by simp [hxs]⟩
        obtain ⟨xs, rfl⟩ := hall _ hm
        exact absurd (.finish ..) (hn _)

/-- The sequential check fails only if some change cannot be processed. -/
theorem seqLoop_fails (cs : List C) (b : Bool) (e : PyErr) (h : seqLoop J cs b = .error e) :
    ∃ x ∈ cs, (if J.isReport x then J.run x else J.check x) = .error e := by
  induction cs generalizing b with
  | nil => simp [seqLoop] at h
  | cons c cs ih =>
    simp only [seqLoop] at h
    cases hc : (if J.isReport c then J.run c else J.check c) with
    | error e1 =>
      simp only [hc, Except.error.injEq] at h
      exact ⟨c, by simp, by rw [hc, h]⟩
    | ok c' =>
      simp only [hc] at h
      cases hl : seqLoop J cs (b || J.isChange c') with
      | error e1 =>
        simp only [hl, Except.error.injEq] at h
        obtain ⟨x, h1, h2⟩ := ih _ (by rw [hl, h])
        exact ⟨x, by simp [h1], h2⟩
      | ok r => simp [hl] at h

/-- C62, for exactly which changes and numbers of processes every run has the outcome of the sequential
check: a change that is no sub-report raises, or nothing raises and there is a process or no sub-report. -/
theorem C62_exact (P : Int) (cs : List C) :
    (∀ s, MpReach J P cs s → (∀ s', ¬ MpStep J (enqueued J 0 cs).length s s') →
      match seqCheck J cs with
      | .ok (xs, c) => s.main = .done c ∧ s.changes = xs.map some
      | .error _ => ∃ e, s.main = .failed e) ↔
    (∃ x ∈ cs, J.isReport x = false ∧ ∃ e, J.check x = .error e) ∨
    ((∀ x ∈ cs, J.isReport x = true → ∃ x', J.run x = .ok x') ∧
      (1 ≤ P ∨ ∀ x ∈ cs, J.isReport x = false)) := by
  by_cases hbad : ∃ x ∈ cs, J.isReport x = false ∧ ∃ e, J.check x = .error e
  · refine ⟨fun _ => .inl hbad, fun _ s hs hn => ?_⟩
    obtain ⟨x, hx, hr, e, he⟩ := hbad
    obtain ⟨e', he'⟩ := seqLoop_error J cs false x hx e (by simp [hr, he])
    rw [seqCheck, he']
    rcases mp_stuck_main J hn with ⟨c, hc⟩ | hf | ⟨k, hk⟩
    · obtain ⟨xs, h1, _⟩ := C62_outcome J P cs s hs c hc
      rw [seqCheck, he'] at h1
      cases h1
    · exact hf
    · obtain ⟨its, got, hi⟩ := mpInv J P cs s hs
      obtain ⟨i, hil, hix⟩ := List.getElem_of_mem hx
      rcases hi.others (by simp [hk]) i x (by rw [List.getElem?_eq_getElem hil, hix]) hr with
        ⟨_, x', h1, _⟩ | ⟨h1, _⟩
      · rw [he] at h1; cases h1
      · exact absurd (by rw [hk]; trivial) h1
  · have hchk : ∀ x ∈ cs, J.isReport x = false → ∃ x', J.check x = .ok x' := by
      intro x hx hr
      cases hc : J.check x with
      | ok x' => exact ⟨x', rfl⟩
      | error e => exact absurd ⟨x, hx, hr, e, hc⟩ hbad
    simp only [hbad, false_or]
    constructor
    · intro hall
      obtain ⟨s, hs, hn⟩ := mp_stuck_exists J P cs _ .init
      have hrun : ∀ x ∈ cs, J.isReport x = true → ∃ x', J.run x = .ok x' := by
        intro x hx hr
        cases he : J.run x with
        | ok x' => exact ⟨x', rfl⟩
        | error e =>
          obtain ⟨h1, h2⟩ := C62_hangs J P cs hchk x hx hr e he s hs
          have := hall s hs hn
          split at this
          · exact absurd this.1 (h1 _)
          · exact absurd this.choose_spec (h2 _)
      refine ⟨hrun, ?_⟩
      by_cases hP : 1 ≤ P
      · exact .inl hP
      · right
        intro x hx
        cases hr : J.isReport x with
        | false => rfl
        | true =>
          have hneg := (C62_negative J P (by omega) cs x hx hr s hs).2
          have := hall s hs hn
          split at this
          · exact absurd this.1 (hneg _)
          · obtain ⟨e, he⟩ := this
            obtain ⟨_, y, hy, hyr, hyc⟩ := C62_failed J P cs s hs e he
            exact absurd ⟨y, hy, hyr, e, hyc⟩ hbad
    · rintro ⟨hrun, hP⟩ s hs hn
      cases hseq : seqCheck J cs with
      | error e =>
        obtain ⟨x, hx, he⟩ := seqLoop_fails J cs false e hseq
        cases hr : J.isReport x with
        | true =>
          obtain ⟨x', hx'⟩ := hrun x hx hr
          simp [hr, hx'] at he
        | false =>
          obtain ⟨x', hx'⟩ := hchk x hx hr
          simp [hr, hx'] at he
      | ok out =>
        obtain ⟨xs, c⟩ := out
        rcases hP with hP | hP
        · exact (C62_ends_partial J P hP cs xs c hseq s hs).1 hn
        · rcases mp_stuck_main J hn with ⟨c', hc⟩ | ⟨e, he⟩ | ⟨k, hk⟩
          · obtain ⟨xs', h1, h2, _⟩ := C62_outcome J P cs s hs c' hc
            rw [hseq] at h1
            simp only [Except.ok.injEq, Prod.mk.injEq] at h1
            obtain ⟨rfl, rfl⟩ := h1
            exact ⟨hc, h2⟩
          · obtain ⟨_, y, hy, hyr, hyc⟩ := C62_failed J P cs s hs e he
            exact absurd ⟨y, hy, hyr, e, hyc⟩ hbad
          · obtain ⟨its, got, hi⟩ := mpInv J P cs s hs
            obtain ⟨_, h2⟩ := hi.getting _ hk
            have h0 : enqueued J 0 cs = [] := by
              apply List.eq_nil_iff_forall_not_mem.2
              rintro ⟨i, x⟩ hm
              obtain ⟨_, h3, h4⟩ := (mem_enqueued J 0 cs i x).1 hm
              rw [hP x (List.mem_of_getElem? h3)] at h4
              cases h4
            rw [h0] at h2
            simp at h2

/-- Both kinds of changes, two processes, nothing raises. -/
example : (∀ s, MpReach demoJobs 2 [1, 2] s → (∀ s', ¬ MpStep demoJobs (enqueued demoJobs 0 [1, 2]).length s s') →
      match seqCheck demoJobs [1, 2] with
      | .ok (xs, c) => s.main = .done c ∧ s.changes = xs.map some
      | .error _ => ∃ e, s.main = .failed e) :=
  (C62_exact demoJobs 2 [1, 2]).2 (.inr ⟨fun x _ _ => ⟨x + 100, rfl⟩, .inl (by decide)⟩)

/-! ## C64 -/

/-- C64, for exactly which texts: those that are equal if their lines are, that is, which do not differ in
the ends of their lines alone. -/
theorem C64_exact (E : DistEnv) (l r : Forest) (f : Str) (hk : DistKindOf false f .text) (s t : Str)
    (ls ms : List Str) (hs : readEntry l f = .ok (encodeUtf8 s)) (ht : readEntry r f = .ok (encodeUtf8 t))
    (hls : IsLines s ls) (hms : IsLines t ms) :
    (∃ c, (distEntryChange E l r false (.diff, f)).check = .ok c ∧ (c.isChange = true ↔ s ≠ t)) ↔
      (ls = ms → s = t) := by
  obtain ⟨c, h1, h2, _⟩ := C64_partial E l r false .diff (.inl rfl) f hk ls ms ⟨s, hs, hls⟩ ⟨t, ht, hms⟩
  have hst : s = t → ls = ms := by
    rintro rfl
    exact isLines_unique hls hms
  constructor
  · rintro ⟨c', h3, h4⟩ he
    rw [h1, Except.ok.injEq] at h3
    subst h3
    rw [h2] at h4
    exact Classical.byContradiction fun hne => h4.2 hne he
  · intro h
    refine ⟨c, h1, ?_⟩
    rw [h2]
    exact ⟨fun hne he => hne (hst he), fun hne he => hne (h he)⟩

/-! ## C66 -/

/-- C66, for exactly which distributions: those in a directory, and those in an archive without any JAR or
class. -/
theorem C66_exact (E : DistEnv) (b : DistBase) (F : Forest) (hw : b.working = .ok F) (hF : F.Ok)
    (hr : DistReadable E F) (calls : List InfoCall) (ig : List Str) :
    (∃ d, ((DistInfo.run E { base := b } calls).getRequires E ig).1 = .ok d ∧
      (∀ s, s ∈ PyDict.keys d ↔ (DistNeeds E F s ∧ ¬ DistOffers E F s) ∧ ¬ Ignored ig s) ∧
      ∀ s xs, PyDict.get? d s = some xs → RequiredBy E F s xs) ↔
    b = .dir F ∨ ∀ p c t, FileAt F p c t → ¬ JarName (slashed p) ∧ ¬ ".class".toList <:+ slashed p := by
  have hdir : ∃ d, ((DistInfo.run E { base := .dir F } calls).getRequires E ig).1 = .ok d ∧
      (∀ s, s ∈ PyDict.keys d ↔ (DistNeeds E F s ∧ ¬ DistOffers E F s) ∧ ¬ Ignored ig s) ∧
      ∀ s xs, PyDict.get? d s = some xs → RequiredBy E F s xs := by
    obtain ⟨d, hd⟩ := (C66_returns E F hF calls ig).1.2 hr
    obtain ⟨_, h2, h3⟩ := C66_requires_partial E F hF calls ig d hd
    exact ⟨d, hd, h2, h3⟩
  cases b with
  | dir G =>
    simp only [DistBase.working, Except.ok.injEq] at hw
    subst hw
    simp only [hdir, true_or]
  | file x =>
    simp only [DistBase.working] at hw
    subst hw
    constructor
    · rintro ⟨d, hd, _⟩
      right
      intro p c t hp
      rw [← not_or]
      intro hk
      obtain ⟨⟨e, he⟩, _⟩ := C66_archive E F hF calls ig p c t hp hk
      rw [hd] at he
      cases he
    · rintro (h | h)
      · cases h
      · have h1 : (distContents F).filter (fun n => fnmatches n jarPatterns) = [] := by
          rw [List.filter_eq_nil_iff]
          intro n hn hm
          obtain ⟨p, c, t, hp, rfl⟩ := (mem_distContents hF _).1 hn
          exact (h p c t hp).1 ((jar_pattern _).1 hm)
        have h2 : (distContents F).filter (fun n => fnmatches n ["*.class".toList]) = [] := by
          rw [List.filter_eq_nil_iff]
          intro n hn hm
          obtain ⟨p, c, t, hp, rfl⟩ := (mem_distContents hF _).1 hn
          exact (h p c t hp).2 ((class_pattern _).1 hm)
        obtain ⟨g1, _⟩ := DistInfo.accessors
          (DistInfo.run_about calls (DistInfo.new_about E (.file (.ok F)))) ig
        obtain ⟨g2, _⟩ := DistInfo.accessors (DistInfo.run_about calls (DistInfo.new_about E (.dir F))) ig
        rw [g2] at hdir
        rw [g1]
        simp only [distResult, DistBase.working, distSymbols, h1, h2, distJarsLoop, distClassesLoop] at hdir ⊢
        exact hdir

/-! ## C93 -/

variable (up : Char → Str)

theorem verifyEntries_undigested {H : Hashes} {z : Zip} {m0 m m' : Manifest} {names fails : List Str}
    (hg : SameOrNew m0 m) (h : verifyEntries up H z true m names = .ok (fails, m')) :
    ∀ n ∈ names, skipsVerification up n = false →
      (¬ ∃ s, PyDict.get? m0.subs n = some s ∧ keysWithSuffix s sDigest ≠ []) → n ∈ fails := by
  induction names generalizing m fails with
  | nil => simp
  | cons f fs ih =>
    intro n hn hsk hno
    simp only [verifyEntries] at h
    by_cases hf : skipsVerification up f = true
    · rw [if_pos hf] at h
      rcases List.mem_cons.1 hn with rfl | hn
      · rw [hsk] at hf; cases hf
      · exact ih hg h n hn hsk hno
    · rw [if_neg hf] at h
      obtain ⟨hg2, hget⟩ := sameOrNew_create hg f
      generalize createSection m f false = q at hg2 hget h
      have hcons : ∀ {fl}, verifyEntries up H z true q.2 fs = .ok (fl, m') → n ∈ fs → n ∈ fl :=
        fun hr hn => ih hg2 hr n hn hsk hno
      have hadd : (match verifyEntries up H z true q.2 fs with
            | .error e => .error e
            | .ok (fails, m') => .ok (f :: fails, m')) = (.ok (fails, m') : Res _) → n ∈ fails := by
        intro he
        cases hr : verifyEntries up H z true q.2 fs with
        | error e => rw [hr] at he; cases he
        | ok w =>
          obtain ⟨fl, m1⟩ := w
          rw [hr] at he
          simp only [Except.ok.injEq, Prod.mk.injEq] at he
          obtain ⟨h1, rfl⟩ := he
          rw [← h1]
          rcases List.mem_cons.1 hn with rfl | hn
          · simp
          · exact List.mem_cons_of_mem _ (hcons hr hn)
      by_cases hem : (keysWithSuffix q.1 sDigest).isEmpty = true
      · simp only [hem, Bool.and_self, if_true] at h
        exact hadd h
      · simp only [hem, Bool.false_and, Bool.false_eq_true, if_false] at h
        split at h
        · cases h
        · rcases List.mem_cons.1 hn with rfl | hn
          · exfalso
            rcases hget with h1 | ⟨_, h2⟩
            · exact hno ⟨_, h1, by simpa using hem⟩
            · rw [h2, new_no_keys] at hem
              simp at hem
          · exact hcons h hn
        · exact hadd h

/-- C93, for exactly which archives: those in which a digest is recorded for every entry that has to match. -/
theorem C93_exact (H : Hashes) (m m' : Manifest) (z : Zip) (fails : List Str)
    (h : verifyJarChecksums up H m z false = .ok (fails, m')) :
    (∀ n ∈ fails, ∃ s, PyDict.get? m.subs n = some s ∧ keysWithSuffix s sDigest ≠ []) ↔
      ∀ n ∈ namelist z, skipsVerification up n = false →
        ∃ s, PyDict.get? m.subs n = some s ∧ keysWithSuffix s sDigest ≠ [] := by
  refine ⟨fun hall n hn hsk => ?_, fun hz => C93_partial up H m m' z fails hz h⟩
  refine Classical.byContradiction fun hno => hno (hall n ?_)
  rw [C93_no_effect] at h
  exact verifyEntries_undigested up (m0 := m) (fun n => .inl rfl) h n hn hsk hno

/-! ## C98 -/

theorem annoLines_ok (E : PrintEnv) (pool : Pool) (as : List AVal) (ts : List Str)
    (h : as.map (annoText E pool) = ts.map Except.ok) : (annoLines E pool as).2 = none := by
  induction as generalizing ts with
  | nil => rfl
  | cons a as ih =>
    cases ts with
    | nil => simp at h
    | cons t ts =>
      simp only [List.map_cons, List.cons.injEq] at h
      simp only [annoLines, h.1, withRes, andThen, sayLine, ih ts h.2]

/-- What is printed about the annotations of a method, if they can be read. -/
theorem printAnnotations_ok {E : PrintEnv} {pool : Pool} {a : Attribs} {as : List AVal} {ts : List Str}
    (h1 : getAnnotations a pool E.lim E.depth "RuntimeVisibleAnnotations" = .ok as)
    (h2 : as.map (annoText E pool) = ts.map Except.ok) :
    ∃ x, printAnnotations E pool a = (x, none) ∧ (x = [] ↔ as = []) := by
  cases as with
  | nil => exact ⟨[], by simp [printAnnotations, h1, withRes, onlyIf], by simp⟩
  | cons b bs =>
    have h3 := annoLines_ok E pool _ ts h2
    refine ⟨"  RuntimeVisibleAnnotations:".toList ++ ['\n'] ++ (annoLines E pool (b :: bs)).1, ?_, by simp⟩
    have : printAnnotations E pool a =
        andThen (sayLine "  RuntimeVisibleAnnotations:".toList) (annoLines E pool (b :: bs)) := by
      simp [printAnnotations, h1, withRes, onlyIf]
    rw [this]
    simp only [andThen, sayLine, h3]

theorem seqOut_extra (f : Member → Out) (g x : Member → Str) (ms : List Member)
    (h : ∀ m ∈ ms, f m = (g m ++ ['\n'] ++ x m, none)) :
    ∃ t : Str, seqOut (ms.map f) = (t, none) ∧ (t = unlines (ms.map g) ↔ ∀ m ∈ ms, x m = []) ∧
      (unlines (ms.map g)).length ≤ t.length := by
  induction ms with
  | nil => exact ⟨[], rfl, by simp [unlines], by simp [unlines]⟩
  | cons m ms ih =>
    obtain ⟨t, h1, h2, h3⟩ := ih fun k hk => h k (by simp [hk])
    refine ⟨g m ++ ['\n'] ++ x m ++ t, ?_, ?_, ?_⟩
    · simp only [List.map_cons, seqOut, h m (by simp), h1, andThen]
    · have hu : unlines (g m :: ms.map g) = g m ++ ['\n'] ++ unlines (ms.map g) := by simp [unlines]
      rw [List.map_cons, hu]
      simp only [List.mem_cons, forall_eq_or_imp, List.append_assoc, List.append_cancel_left_eq]
      constructor
      · intro he
        have hl := congrArg List.length he
        rw [List.length_append] at hl
        have hx : x m = [] := List.eq_nil_of_length_eq_zero (by omega)
        refine ⟨hx, h2.1 ?_⟩
        rw [hx] at he
        exact he
      · rintro ⟨hx, hr⟩
        rw [hx, h2.2 hr]
        rfl
    · have hu : unlines (g m :: ms.map g) = g m ++ ['\n'] ++ unlines (ms.map g) := by simp [unlines]
      rw [List.map_cons, hu]
      simp only [List.length_append]
      omega

theorem terseText_parts (o : InfoArgs) (c : ClassInfo) (source : Option Str) (decl : Str) (text : Member → Str) :
    terseText o c source decl text = sourceLine source ++ decl ++ (unlines ["{".toList] ++
      unlines ((c.fields.filter (shouldShow o)).map fun m => memberLine (text m)) ++
      unlines ((c.methods.filter (shouldShow o)).map fun m => memberLine (text m)) ++
      unlines ["}".toList, []]) := by
  unfold terseText
  rw [unlines_append, unlines_append, List.filter_append, List.map_append, unlines_append]
  simp only [List.append_assoc]
  cases source <;> rfl

theorem printClassinfo_parts {E : PrintEnv} {o : InfoArgs} {c : ClassInfo} {source : Option Str} {decl fs ms : Str}
    (ho : o.Terse) (hsrc : derefAttr c.attribs c.pool E.lim "SourceFile" = .ok (source.map PVal.str))
    (hne : source ≠ some []) (hd : c.prettyDescriptor E.lim = .ok decl)
    (hf : seqOut ((c.fields.filter (shouldShow o)).map (printField E o c.pool)) = (fs, none))
    (hm : seqOut ((c.methods.filter (shouldShow o)).map (printMethod E o c.pool)) = (ms, none)) :
    printClassinfo E o c = (sourceLine source ++ decl ++ (unlines ["{".toList] ++ fs ++ ms ++
      unlines ["}".toList, []]), none) := by
  unfold printClassinfo printMembers
  rw [hf, hm, hsrc, hd]
  unfold sourceLine
  cases source with
  | none => simp [ho.provides, ho.requires, ho.verbose, ho.constpool, ho.notHeader]
  | some s =>
    have hs : s.isEmpty = false := by
      cases s with
      | nil => exact absurd rfl hne
      | cons a s => rfl
    simp [ho.provides, ho.requires, ho.verbose, ho.constpool, ho.notHeader, PVal.truthy, PrintEnv.str, hs]

/-- C98, for exactly which classes: those in which no method that is shown has annotations. -/
theorem C98_exact (E : PrintEnv) (o : InfoArgs) (c : ClassInfo) (source : Option Str) (decl : Str)
    (text : Member → Str) (ho : o.Terse) (h : Readable E o c source decl text) :
    printClassinfo E o c = (terseText o c source decl text, none) ↔
      ∀ m ∈ c.methods, shouldShow o m = true →
        getAnnotations m.attribs c.pool E.lim E.depth "RuntimeVisibleAnnotations" = .ok [] := by
  have hf : seqOut ((c.fields.filter (shouldShow o)).map (printField E o c.pool)) =
      (unlines ((c.fields.filter (shouldShow o)).map fun m => memberLine (text m)), none) := by
    apply seqOut_lines
    intro m hm
    obtain ⟨h1, h2⟩ := List.mem_filter.1 hm
    exact terse_field E o c.pool m _ ho (h.fields m h1 h2)
  have hx : ∀ m ∈ c.methods.filter (shouldShow o),
      printMethod E o c.pool m =
        (memberLine (text m) ++ ['\n'] ++ (printAnnotations E c.pool m.attribs).1, none) ∧
      ((printAnnotations E c.pool m.attribs).1 = [] ↔
        getAnnotations m.attribs c.pool E.lim E.depth "RuntimeVisibleAnnotations" = .ok []) := by
    intro m hm
    obtain ⟨h1, h2⟩ := List.mem_filter.1 hm
    obtain ⟨h3, ⟨as, h4, ts, h5⟩, code, h6⟩ := h.methods m h1 h2
    obtain ⟨x, h7, h8⟩ := printAnnotations_ok h4 h5
    rw [terse_method E o c.pool m _ ho h3 code h6, h7, h4]
    exact ⟨by simp [andThen], by rw [h8]; simp⟩
  obtain ⟨t, ht, hiff, _⟩ := seqOut_extra (printMethod E o c.pool) (fun m => memberLine (text m))
    (fun m => (printAnnotations E c.pool m.attribs).1) (c.methods.filter (shouldShow o)) fun m hm => (hx m hm).1
  have hp := printClassinfo_parts ho h.src h.nonempty h.dcl hf ht
  have hT := terseText_parts o c source decl text
  rw [hp, hT, Prod.mk.injEq]
  simp only [and_true, List.append_cancel_left_eq, List.append_cancel_right_eq, hiff]
  constructor
  · intro ha m h1 h2
    have hm := List.mem_filter.2 ⟨h1, h2⟩
    exact (hx m hm).2.1 (ha m hm)
  · intro ha m hm
    obtain ⟨h1, h2⟩ := List.mem_filter.1 hm
    exact (hx m hm).2.2 (ha m h1 h2)

/-! ## C132 -/

theorem hasConstArg_known {op : Nat} (h : op < 202) : ∃ b, hasConstArg op = .ok b := by
  have hall : ∀ op : Fin 202, (hasConstArg op.val).toOption.isSome = true := by decide +kernel
  have := hall ⟨op, h⟩
  simp only at this
  cases hc : hasConstArg op with
  | ok b => exact ⟨b, rfl⟩
  | error e => rw [hc] at this; cases this

/-- C132, for exactly which changes of code: those in which every instruction that differs loads a constant. -/
theorem C132_exact {fmt repr : PVal → Str} {lp rp : Pool} {lim : Nat} {l r : CodeInfo}
    {old new : List ConstRow}
    (h : constantsData fmt repr lp rp lim (some l) (some r) = .ok (some old, some new)) :
    (∀ i j, Differing lp rp lim l r i j → i.off ∈ old.map Prod.fst ∧ j.off ∈ new.map Prod.fst) ↔
      ∀ i j, Differing lp rp lim l r i j → hasConstArg i.code = .ok true := by
  constructor
  · intro hall i j hd
    obtain ⟨b, hb⟩ := hasConstArg_known (disassemble_known i hd.mem.1)
    cases b with
    | true => exact hb
    | false => exact absurd (hall i j hd).1 ((C132_partial h hd).2 hb).1
  · intro hall i j hd
    exact (C132_partial h hd).1 (hall i j hd)

end Javatools
