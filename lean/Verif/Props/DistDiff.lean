import Verif.Model.DistDiff
import Verif.Props.DistMp
import Verif.Props.Dir
import Verif.Props.JarDiff
import Verif.Proofs.TextLines
/-
C63, C64 and C74-C77: comparing distributions, javatools/distdiff.py.
-/
namespace Javatools
open Spec

/-! ### C74: the kinds of files -/

/-- What a file of a distribution is, going by its name. -/
inductive DistKind where
  | jar | cls | text | manifest | other
  deriving DecidableEq

/-- The text ends in one of these. -/
def EndsIn (f : Str) (sfx : List String) : Prop := ∃ s ∈ sfx, ∃ p, f = p ++ s.toList

def jarSuffixes : List String := [".ear", ".jar", ".rar", ".sar", ".war"]

def textSuffixes : List String :=
  [".bat", ".cert", ".cfg", ".conf", ".dtd", ".html", ".ini", ".properties", ".sh", ".text", ".txt",
   ".xml"]

/-- The kind of a file; in a shallow comparison none is of a special kind. -/
def DistKindOf (shallow : Bool) (f : Str) : DistKind → Prop
  | .jar => shallow = false ∧ EndsIn f jarSuffixes
  | .cls => shallow = false ∧ EndsIn f [".class"]
  | .text => shallow = false ∧ EndsIn f textSuffixes
  | .manifest => shallow = false ∧ EndsIn f ["/MANIFEST.MF"]
  | .other => shallow = true ∨ ¬ EndsIn f (jarSuffixes ++ textSuffixes ++ [".class", "/MANIFEST.MF"])

/-- The class of change objects for an event and a kind of file. -/
def distClass : Event → DistKind → String
  | .left, .jar => "DistJarRemoved"
  | .left, .cls => "DistClassRemoved"
  | .left, _ => "DistContentRemoved"
  | .right, .jar => "DistJarAdded"
  | .right, .cls => "DistClassAdded"
  | .right, _ => "DistContentAdded"
  | _, .jar => "DistJarChange"
  | _, .cls => "DistClassChange"
  | _, .text => "DistTextChange"
  | _, .manifest => "DistManifestChange"
  | _, .other => "DistContentChange"

theorem endsIn_iff (f : Str) (sfx : List String) (pats : List Str)
    (hp : pats = sfx.map fun s => '*' :: s.toList)
    (h : ∀ s ∈ sfx, ∀ c ∈ s.toList, c ≠ '*' ∧ c ≠ '?' ∧ c ≠ '[') :
    fnmatches f pats = true ↔ EndsIn f sfx := by
  subst hp
  induction sfx with
  | nil => simp [fnmatches, EndsIn]
  | cons s sfx ih =>
    have h1 := C61_star_suffix f s.toList (h s (by simp))
    rw [List.map_cons]
    unfold fnmatches
    simp only [List.isEmpty_cons, Bool.not_false, Bool.true_and]
    have ih := ih fun s hs => h s (by simp [hs])
    rw [suffix_iff] at h1
    by_cases hm : fnmatch f ('*' :: s.toList) = true
    · rw [if_pos hm]
      simp only [true_iff]
      exact ⟨s, by simp, h1.1 hm⟩
    · rw [if_neg hm, ih]
      constructor
      · rintro ⟨t, ht, hx⟩; exact ⟨t, by simp [ht], hx⟩
      · rintro ⟨t, ht, hx⟩
        rcases List.mem_cons.1 ht with rfl | ht
        · exact absurd (h1.2 hx) hm
        · exact ⟨t, ht, hx⟩

theorem jar_iff (f : Str) : fnmatches f jarPatterns = true ↔ EndsIn f jarSuffixes :=
  endsIn_iff f _ _ (by decide +kernel) (by decide +kernel)

theorem text_iff (f : Str) : fnmatches f textPatterns = true ↔ EndsIn f textSuffixes :=
  endsIn_iff f _ _ (by decide +kernel) (by decide +kernel)

theorem class_iff (f : Str) : fnmatches f ["*.class".toList] = true ↔ EndsIn f [".class"] :=
  endsIn_iff f _ _ (by decide +kernel) (by decide +kernel)

theorem manifest_iff (f : Str) : fnmatches f ["*/MANIFEST.MF".toList] = true ↔ EndsIn f ["/MANIFEST.MF"] :=
  endsIn_iff f _ _ (by decide +kernel) (by decide +kernel)

/-- Two of the suffixes that end the same text: the shorter one ends the longer one. -/
theorem endsIn_two {f : Str} {s t : String} (h1 : ∃ p, f = p ++ s.toList) (h2 : ∃ p, f = p ++ t.toList) :
    s.toList <:+ t.toList ∨ t.toList <:+ s.toList := by
  obtain ⟨p, hp⟩ := h1
  obtain ⟨q, hq⟩ := h2
  by_cases hlen : s.toList.length ≤ t.toList.length
  · exact .inl (List.suffix_of_suffix_length_le ⟨p, hp.symm⟩ ⟨q, hq.symm⟩ hlen)
  · exact .inr (List.suffix_of_suffix_length_le ⟨q, hq.symm⟩ ⟨p, hp.symm⟩ (by omega))

theorem endsIn_apart {f : Str} {as bs : List String} (h : EndsIn f as)
    (hd : ∀ a ∈ as, ∀ b ∈ bs, (a.toList.isSuffixOf b.toList || b.toList.isSuffixOf a.toList) = false) :
    ¬ EndsIn f bs := by
  rintro ⟨b, hb, hq⟩
  obtain ⟨a, ha, hp⟩ := h
  have := hd a ha b hb
  rw [Bool.or_eq_false_iff] at this
  rcases endsIn_two hp hq with h | h
  · rw [← List.isSuffixOf_iff_suffix] at h; rw [h] at this; simp at this
  · rw [← List.isSuffixOf_iff_suffix] at h; rw [h] at this; simp at this

theorem endsIn_append {f : Str} {as bs : List String} : EndsIn f (as ++ bs) ↔ EndsIn f as ∨ EndsIn f bs := by
  constructor
  · rintro ⟨s, hs, h⟩
    rcases List.mem_append.1 hs with hs | hs
    · exact .inl ⟨s, hs, h⟩
    · exact .inr ⟨s, hs, h⟩
  · rintro (⟨s, hs, h⟩ | ⟨s, hs, h⟩)
    · exact ⟨s, by simp [hs], h⟩
    · exact ⟨s, by simp [hs], h⟩

theorem endsIn_classMf {f : Str} : EndsIn f [".class", "/MANIFEST.MF"] ↔
    EndsIn f [".class"] ∨ EndsIn f ["/MANIFEST.MF"] :=
  endsIn_append (as := [".class"]) (bs := ["/MANIFEST.MF"])

/-- Every file has exactly one kind. -/
theorem distKind_unique (shallow : Bool) (f : Str) :
    ∃ k, DistKindOf shallow f k ∧ ∀ k', DistKindOf shallow f k' → k' = k := by
  cases shallow with
  | true => exact ⟨.other, .inl rfl, fun k' h => by cases k' <;> first | rfl | exact absurd h.1 (by simp)⟩
  | false =>
    have apart := @endsIn_apart f
    have h12 : EndsIn f jarSuffixes → ¬ EndsIn f [".class"] := fun h => apart h (by decide +kernel)
    have h13 : EndsIn f jarSuffixes → ¬ EndsIn f textSuffixes := fun h => apart h (by decide +kernel)
    have h14 : EndsIn f jarSuffixes → ¬ EndsIn f ["/MANIFEST.MF"] := fun h => apart h (by decide +kernel)
    have h23 : EndsIn f [".class"] → ¬ EndsIn f textSuffixes := fun h => apart h (by decide +kernel)
    have h24 : EndsIn f [".class"] → ¬ EndsIn f ["/MANIFEST.MF"] := fun h => apart h (by decide +kernel)
    have h34 : EndsIn f textSuffixes → ¬ EndsIn f ["/MANIFEST.MF"] := fun h => apart h (by decide +kernel)
    have h5 : DistKindOf false f .other ↔ ¬ EndsIn f jarSuffixes ∧ ¬ EndsIn f textSuffixes ∧
        ¬ EndsIn f [".class"] ∧ ¬ EndsIn f ["/MANIFEST.MF"] := by
      simp only [DistKindOf, Bool.false_eq_true, false_or, endsIn_append, endsIn_classMf]
      simp only [not_or, and_assoc]
    have e1 : DistKindOf false f .jar ↔ EndsIn f jarSuffixes := ⟨fun h => h.2, fun h => ⟨rfl, h⟩⟩
    have e2 : DistKindOf false f .cls ↔ EndsIn f [".class"] := ⟨fun h => h.2, fun h => ⟨rfl, h⟩⟩
    have e3 : DistKindOf false f .text ↔ EndsIn f textSuffixes := ⟨fun h => h.2, fun h => ⟨rfl, h⟩⟩
    have e4 : DistKindOf false f .manifest ↔ EndsIn f ["/MANIFEST.MF"] := ⟨fun h => h.2, fun h => ⟨rfl, h⟩⟩
    generalize EndsIn f jarSuffixes = A at *
    generalize EndsIn f [".class"] = B at *
    generalize EndsIn f textSuffixes = C at *
    generalize EndsIn f ["/MANIFEST.MF"] = D at *
    have fin : ∀ k, DistKindOf false f k → (∀ k', DistKindOf false f k' → k' = k) →
      ∃ k, DistKindOf false f k ∧ ∀ k', DistKindOf false f k' → k' = k := fun k h1 h2 => ⟨k, h1, h2⟩
    by_cases a : A
    · exact fin .jar (e1.2 a) fun k' h => by cases k' <;> simp_all
    by_cases b : B
    · exact fin .cls (e2.2 b) fun k' h => by cases k' <;> simp_all
    by_cases c : C
    · exact fin .text (e3.2 c) fun k' h => by cases k' <;> simp_all
    by_cases d : D
    · exact fin .manifest (e4.2 d) fun k' h => by cases k' <;> simp_all
    · exact fin .other (h5.2 ⟨a, c, b, d⟩) fun k' h => by cases k' <;> simp_all

/-- The branch that is taken. -/
def distObject (E : DistEnv) (l r : Forest) (f : Str) : Event → DistKind → Change DiffOpts
  | .left, .jar => distOneSided "DistJarRemoved" "Distributed JAR Removed" .removal f
  | .left, .cls => distOneSided "DistClassRemoved" "Distributed Java Class Removed" .removal f
  | .left, _ => distRemoved f
  | .right, .jar => distOneSided "DistJarAdded" "Distributed JAR Added" .addition f
  | .right, .cls => distOneSided "DistClassAdded" "Distributed Java Class Added" .addition f
  | .right, _ => distAdded f
  | .diff, .jar => distJarChange E l r f true
  | .same, .jar => distJarChange E l r f false
  | .diff, .cls => distClassChange E l r f true
  | .same, .cls => distClassChange E l r f false
  | .diff, .text => distTextChange l r f true
  | .same, .text => distTextChange l r f false
  | .diff, .manifest => distManifestChange E l r f true
  | .same, .manifest => distManifestChange E l r f false
  | .diff, .other => distContent "DistContentChange" "Distributed Content"
      (.orElse (filenameIgnored f)) f true []
  | .same, .other => distContent "DistContentChange" "Distributed Content"
      (.orElse (filenameIgnored f)) f false []

theorem distEntryChange_eq (E : DistEnv) (l r : Forest) (shallow : Bool) (ev : Event) (f : Str)
    (k : DistKind) (hk : DistKindOf shallow f k) :
    distEntryChange E l r shallow (ev, f) = distObject E l r f ev k := by
  obtain ⟨k₀, hk₀, huniq⟩ := distKind_unique shallow f
  have := huniq k hk
  subst this
  unfold distEntryChange
  have key : ∀ (pats : List Str) (k' : DistKind),
      (DistKindOf shallow f k' ↔ shallow = false ∧ fnmatches f pats = true) →
      (!shallow && fnmatches f pats) = decide (k = k') := by
    intro pats k' h
    rw [Bool.eq_iff_iff, Bool.and_eq_true, Bool.not_eq_true', ← h, decide_eq_true_iff]
    exact ⟨fun h => (huniq k' h).symm, fun h => by subst h; exact hk⟩
  have e1 := key jarPatterns .jar (by rw [jar_iff]; rfl)
  have e2 := key _ .cls (by rw [class_iff]; rfl)
  have e3 := key textPatterns .text (by rw [text_iff]; rfl)
  have e4 := key _ .manifest (by rw [manifest_iff]; rfl)
  simp only [e1, e2, e3, e4]
  clear e1 e2 e3 e4 key hk hk₀ huniq
  cases k <;> cases ev <;> rfl

/-- C74: the change object for an event has the class that the event and the kind of the file call
for, names the file, and is a change exactly unless the files are the same. -/
theorem C74_entry (E : DistEnv) (l r : Forest) (shallow : Bool) (ev : Event) (f : Str)
    (k : DistKind) (hk : DistKindOf shallow f k) :
    (distEntryChange E l r shallow (ev, f)).hdr.typeName = distClass ev k ∧
    (distEntryChange E l r shallow (ev, f)).hdr.entry = some f ∧
    (distEntryChange E l r shallow (ev, f)).hdr.kind = eventKind ev ∧
    ((distEntryChange E l r shallow (ev, f)).isChange = true ↔ ev ≠ .same) := by
  rw [distEntryChange_eq E l r shallow ev f k hk]
  cases ev <;> cases k <;> refine ⟨rfl, rfl, rfl, ?_⟩ <;>
    first
    | exact ⟨fun _ => by simp, fun _ => rfl⟩
    | exact ⟨fun h => absurd h (by show ¬ (false = true); simp), fun h => absurd rfl h⟩

/-- C74: the children of the comparison are the objects for the events of the directory comparison,
each once, grouped by class in the listed order. -/
theorem C74_collected (E : DistEnv) (l r : Forest) (shallow : Bool) (evs : List (Event × Str))
    (h : compareDirs l r = (evs, none)) :
    ∃ cs, distChildren E l r shallow = .ok cs ∧ (distChange E l r shallow).collect = cs ∧
      cs.Perm (evs.map (distEntryChange E l r shallow)) ∧
      cs.Pairwise fun a b =>
        distTypes.idxOf a.hdr.typeName ≤ distTypes.idxOf b.hdr.typeName := by
  have hcs : distChildren E l r shallow = .ok (iterateByType
      (fun c : Change DiffOpts => c.hdr.typeName) (evs.map (distEntryChange E l r shallow)) distTypes) := by
    simp only [distChildren, h]
  refine ⟨_, hcs, ?_, C37_permutation _ _ _, ?_⟩
  · simp only [distChange, Change.collect, hcs, orRaise]
  · exact C37_order _ _ _

/-- C74: if the directory comparison raises, so does the comparison of the distributions. -/
theorem C74_raises (E : DistEnv) (l r : Forest) (shallow : Bool) (evs : List (Event × Str)) (e : PyErr)
    (h : compareDirs l r = (evs, some e)) (o : DiffOpts) :
    (distChange E l r shallow).check = .error e ∧ distDiffStatus E l r shallow o = .error e := by
  have : (distChange E l r shallow).check = .error e := by
    simp [distChange, distChildren, h, orRaise, raising, Change.check, Change.checkAll]
  exact ⟨this, by simp [distDiffStatus, this, Except.map]⟩

/-- C74 for directories with at most one common subdirectory in each directory and no file that is a
directory on the other side: every file of either distribution has exactly one object, of the
right class. -/
theorem C74_files (E : DistEnv) (l r : Forest) (shallow : Bool) (hl : l.Ok) (hr : r.Ok)
    (hc : NoClash l r) (ho : OneCommon l r) :
    ∃ (cs : List (Change DiffOpts)) (ps : List (Event × List Str)),
      distChildren E l r shallow = .ok cs ∧
      cs.Perm (ps.map fun p => distEntryChange E l r shallow (eventText [] p)) ∧
      (ps.map Prod.snd).Nodup ∧ (∀ ev p, (ev, p) ∈ ps ↔ Reporting Shallow l r ev p) ∧
      ∀ p ∈ ps, Denotes (eventText [] p).2 p.2 := by
  have hnone := (eventPaths_err hl hr).2 ho
  have htext := compareDirs_text hl hr
  obtain ⟨cs, h1, _, h2, _⟩ := C74_collected E l r shallow (compareDirs l r).1 (by
    rw [htext]
    have : (toText [] (eventPaths l r)).2 = none := hnone
    exact Prod.ext rfl this)
  refine ⟨cs, (eventPaths l r).1, h1, ?_, eventPaths_once hl hr,
    fun ev p => ⟨eventPaths_sound hl hr, eventPaths_complete hl hr hc ho⟩,
    fun p _ => (eventText_denotes p).2⟩
  rw [htext] at h2
  simpa [toText, List.map_map, Function.comp_def] using h2

/-! ### The status -/

theorem checkAll_exists {O : Type} (cs : List (Change O)) (b : Bool)
    (h : ∀ c ∈ cs, ∃ c', c.check = .ok c') : ∃ p, Change.checkAll cs b = .ok p := by
  induction cs generalizing b with
  | nil => exact ⟨_, rfl⟩
  | cons c cs ih =>
    obtain ⟨c', hc'⟩ := h c (by simp)
    obtain ⟨p, hp⟩ := ih (b || c'.isChange) fun x hx => h x (by simp [hx])
    simp [Change.checkAll, hc', hp]

theorem exit_one_iff {O : Type} (o : O) (c : Change O) :
    Change.exitStatus o c = 1 ↔ c.isChange = true ∧ c.isIgnored o = false := by
  unfold Change.exitStatus
  cases c.isChange <;> cases c.isIgnored o <;> simp

/-- The exit status of a composite without rules of its own, from its unchecked children. -/
theorem super_status {O : Type} (o : O) (h : Hdr O) (hk : h.kind = .plain) (hi : h.ign = .inherit)
    (b : Bool) (d : Option Str) (cs : List (Change O)) (st : Nat)
    (hst : (Change.check (.super h none b d cs)).map (Change.exitStatus o) = .ok st) :
    (∀ x ∈ cs, ∃ c, x.check = .ok c) ∧ (st = 0 ∨ st = 1) ∧
    (st = 1 ↔ ∃ x ∈ cs, ∃ c, x.check = .ok c ∧ c.isChange = true ∧ c.isIgnored o = false) := by
  simp only [Change.check] at hst
  cases hr : Change.checkAll cs false with
  | error e => rw [hr] at hst; simp [Except.map] at hst
  | ok p =>
    obtain ⟨cs', c⟩ := p
    rw [hr] at hst
    obtain ⟨h3, h4, h5, _⟩ := Change.checkAll_ok _ _ _ _ hr
    simp only [Bool.false_eq_true, false_or] at h5
    simp only [Except.map, Except.ok.injEq] at hst
    rw [exit_super o h hk hi c cs' h5] at hst
    refine ⟨fun x hx => ?_, by rw [← hst]; split <;> simp, ?_⟩
    · obtain ⟨c', _, hc'⟩ := h4 x hx
      exact ⟨c', hc'⟩
    · rw [← hst]
      simp only [ite_eq_left_iff, Nat.zero_ne_one, imp_false, Classical.not_not]
      constructor
      · rintro ⟨x, hx, hx1⟩
        obtain ⟨c0, hc0, hc1⟩ := h3 x hx
        exact ⟨c0, hc0, x, hc1, (exit_one_iff o x).1 hx1⟩
      · rintro ⟨c0, hc0, c1, hc1, hc2⟩
        obtain ⟨x, hx, hx1⟩ := h4 c0 hc0
        rw [hc1, Except.ok.injEq] at hx1
        subst hx1
        exact ⟨c1, hx, (exit_one_iff o c1).2 hc2⟩

/-- C74: when the comparison ends, its status says whether some file is a change that is not
ignored. -/
theorem C74_status (E : DistEnv) (l r : Forest) (shallow : Bool) (o : DiffOpts) (st : Nat)
    (h : distDiffStatus E l r shallow o = .ok st) :
    (compareDirs l r).2 = none ∧
    (∀ p ∈ (compareDirs l r).1, ∃ c, (distEntryChange E l r shallow p).check = .ok c) ∧
    (st = 0 ∨ st = 1) ∧
    (st = 1 ↔ ∃ p ∈ (compareDirs l r).1, ∃ c, (distEntryChange E l r shallow p).check = .ok c ∧
      c.isChange = true ∧ c.isIgnored o = false) := by
  cases he : compareDirs l r with
  | mk evs err =>
    cases err with
    | some e =>
      rw [(C74_raises E l r shallow evs e he o).2] at h
      cases h
    | none =>
      obtain ⟨cs, h1, _, h2, _⟩ := C74_collected E l r shallow evs he
      unfold distDiffStatus distChange at h
      rw [h1] at h
      obtain ⟨h3, h4, h5⟩ := super_status o _ rfl rfl _ _ cs st h
      refine ⟨rfl, fun p hp => h3 _ (h2.mem_iff.2 (List.mem_map.2 ⟨p, hp, rfl⟩)), h4, h5.trans ?_⟩
      constructor
      · rintro ⟨x, hx, hc⟩
        obtain ⟨p, hp, rfl⟩ := List.mem_map.1 (h2.mem_iff.1 hx)
        exact ⟨p, hp, hc⟩
      · rintro ⟨p, hp, hc⟩
        exact ⟨_, h2.mem_iff.2 (List.mem_map.2 ⟨p, hp, rfl⟩), hc⟩

/-- The comparison ends if that of every file does. -/
theorem dist_ends (E : DistEnv) (l r : Forest) (shallow : Bool) (o : DiffOpts)
    (he : (compareDirs l r).2 = none)
    (h : ∀ p ∈ (compareDirs l r).1, ∃ c, (distEntryChange E l r shallow p).check = .ok c) :
    ∃ st, distDiffStatus E l r shallow o = .ok st := by
  obtain ⟨cs, h1, _, h2, _⟩ := C74_collected E l r shallow (compareDirs l r).1 (Prod.ext rfl he)
  obtain ⟨p, hp⟩ := checkAll_exists cs false fun c hc => by
    obtain ⟨p, hp, rfl⟩ := List.mem_map.1 (h2.mem_iff.1 hc)
    exact h p hp
  refine ⟨Change.exitStatus o (.super (distChange E l r shallow).hdr none p.2 none p.1), ?_⟩
  unfold distDiffStatus
  have : (distChange E l r shallow).check =
      .ok (.super (distChange E l r shallow).hdr none p.2 none p.1) := by
    unfold distChange
    simp only [Change.check, h1, orRaise, hp]
    rfl
  rw [this]
  rfl

/-! ### Reading files -/

theorem read_fileAt {F : Forest} (hF : F.Ok) {p : List Str} {b : Bytes} {t : Int} (h : FileAt F p b t) :
    F.read p = some b := by
  induction p generalizing F with
  | nil => exact absurd rfl h.ne_nil
  | cons n p ih =>
    rcases (fileAt_cons hF).1 h with ⟨rfl, h1⟩ | ⟨s, h1, h2⟩
    · simp only [Forest.read, h1]
    · cases p with
      | nil => exact absurd rfl h2.ne_nil
      | cons m ns =>
        simp only [Forest.read, h1]
        exact ih (hF.find_dir h1) h2

theorem splitAll_slashed {p : List Str} (hp : p ≠ []) (hn : ∀ n ∈ p, IsName n) :
    splitAll '/' (slashed p) = p := by
  induction p with
  | nil => exact absurd rfl hp
  | cons n p ih =>
    cases p with
    | nil => exact splitAll_no (hn n (by simp)).2.1
    | cons m ns =>
      rw [slashed, splitAll_cons (hn n (by simp)).2.1, ih (by simp) fun x hx => hn x (by simp [hx])]

theorem pathParts_denotes {f : Str} {p : List Str} (hp : p ≠ []) (hn : ∀ n ∈ p, IsName n)
    (h : Denotes f p) : pathParts f = p := by
  have hfil : p.filter (fun n => n ≠ [] ∧ n ≠ ['.']) = p := by
    rw [List.filter_eq_self]
    intro n hm
    simpa using ⟨(hn n hm).1, (hn n hm).2.2.1⟩
  rcases h with rfl | rfl
  · unfold pathParts
    rw [splitAll_slashed hp hn, hfil]
  · have e : "./".toList ++ slashed p = ['.'] ++ '/' :: slashed p := by
      have : "./".toList = ['.', '/'] := by decide
      rw [this]; rfl
    unfold pathParts
    rw [e, splitAll_cons (by decide), splitAll_slashed hp hn, List.filter_cons_of_neg (by decide), hfil]

/-- A file is read under any text for its path. -/
theorem readEntry_file {F : Forest} (hF : F.Ok) {p : List Str} {b : Bytes} {t : Int} {f : Str}
    (h : FileAt F p b t) (hf : Denotes f p) : readEntry F f = .ok b := by
  unfold readEntry
  rw [pathParts_denotes h.ne_nil (fileAt_names hF h) hf, read_fileAt hF h]

/-! ### Single files -/

/-- Added and removed files. -/
theorem oneSided_check (name label : String) (k : Kind) (hk : k = .addition ∨ k = .removal) (f : Str) :
    ∃ c, (distOneSided name label k f).check = .ok c ∧ c.isChange = true ∧
      ∀ o, c.isIgnored o = fnmatches f o.filenames := by
  refine ⟨.super (distOneSided name label k f).hdr none false none [], rfl, ?_, ?_⟩
  · rcases hk with rfl | rfl <;> rfl
  · intro o
    rcases hk with rfl | rfl <;> exact Bool.or_false _

/-- C63, C74: added and removed files are changes after `check`, ignored exactly if a pattern of
`--ignore-filenames` matches. -/
theorem C74_checked_one_sided (E : DistEnv) (l r : Forest) (shallow : Bool) (ev : Event) (f : Str)
    (hev : ev = .left ∨ ev = .right) :
    ∃ c, (distEntryChange E l r shallow (ev, f)).check = .ok c ∧ c.isChange = true ∧
      ∀ o, c.isIgnored o = true ↔ fnmatches f o.filenames = true := by
  obtain ⟨k, hk, _⟩ := distKind_unique shallow f
  rw [distEntryChange_eq E l r shallow ev f k hk]
  have key : ∀ name label kd, (kd = .addition ∨ kd = .removal) →
      ∃ c, (distOneSided name label kd f).check = .ok c ∧ c.isChange = true ∧
      ∀ o, c.isIgnored o = true ↔ fnmatches f o.filenames = true := by
    intro name label kd hkd
    obtain ⟨c, h1, h2, h3⟩ := oneSided_check name label kd hkd f
    exact ⟨c, h1, h2, fun o => by rw [h3]⟩
  rcases hev with rfl | rfl <;> cases k <;> exact key _ _ _ (by simp)

/-- C63, a finding: a differing file of no special kind is not a change after `check`. In a shallow
comparison that is every file. -/
theorem C63_other_lost (E : DistEnv) (l r : Forest) (shallow : Bool) (ev : Event) (f : Str)
    (hev : ev = .diff ∨ ev = .same) (hk : DistKindOf shallow f .other) :
    ∃ c, (distEntryChange E l r shallow (ev, f)).check = .ok c ∧ c.isChange = false := by
  rw [distEntryChange_eq E l r shallow ev f _ hk]
  rcases hev with rfl | rfl
  · exact ⟨.super (distObject E l r f .diff .other).hdr none false none [], rfl, rfl⟩
  · exact ⟨.super (distObject E l r f .same .other).hdr none false none [], rfl, rfl⟩

/-- Files that are the same are not changes after `check`, and nothing is read, except of text
files. -/
theorem same_check (E : DistEnv) (l r : Forest) (shallow : Bool) (f : Str) (k : DistKind)
    (hk : DistKindOf shallow f k) (ht : k ≠ .text) :
    ∃ c, (distEntryChange E l r shallow (.same, f)).check = .ok c ∧ c.isChange = false := by
  rw [distEntryChange_eq E l r shallow .same f _ hk]
  refine ⟨.super (distObject E l r f .same k).hdr none false none [], ?_, ?_⟩
  · cases k <;> first | rfl | exact absurd rfl ht
  · cases k <;> rfl

theorem bothFiles_ok {α : Type} {g : Bytes → Res α} {l r : Forest} {f : Str} {x y : Bytes} {a b : α}
    (hx : readEntry l f = .ok x) (hy : readEntry r f = .ok y) (ha : g x = .ok a) (hb : g y = .ok b) :
    bothFiles g l r f = .ok (a, b) := by
  simp only [bothFiles, hx, ha, hy, hb]

/-- A composite whose one child is checked. -/
theorem child_check (name label : String) (f : Str) (x d : Change DiffOpts) (hd : x.check = .ok d) :
    ∃ c, (distContent name label (.orElse (filenameIgnored f)) f true [x]).check = .ok c ∧
      c.isChange = d.isChange ∧ ∀ o, c.isIgnored o = true ↔
        fnmatches f o.filenames = true ∨ (d.isChange = true ∧ d.isIgnored o = true) := by
  refine ⟨.super (distContent name label (.orElse (filenameIgnored f)) f true [x]).hdr none d.isChange
    none [d], check_single _ _ _ _ _ hd, rfl, fun o => ?_⟩
  rw [single_isIgnored _ (filenameIgnored f) rfl rfl, Bool.or_eq_true, Bool.and_eq_true]
  exact Iff.rfl

/-- C63: a differing class is a change after `check` exactly when the class comparison finds a
change. -/
theorem C63_class (E : DistEnv) (l r : Forest) (f : Str) (shallow : Bool) (hk : DistKindOf shallow f .cls)
    (x y : Bytes) (a b : ClassInfo) (d : Change Opts)
    (hx : readEntry l f = .ok x) (hy : readEntry r f = .ok y) (ha : unpackClass E.lim (.bytes x) = .ok a)
    (hb : unpackClass E.lim (.bytes y) = .ok b)
    (hd : (javaClassChange E.T E.lim E.depth a b).check = .ok d) :
    ∃ c, (distEntryChange E l r shallow (.diff, f)).check = .ok c ∧ c.isChange = d.isChange ∧
      ∀ o, c.isIgnored o = true ↔
        fnmatches f o.filenames = true ∨ (d.isChange = true ∧ d.isIgnored o.flags = true) := by
  rw [distEntryChange_eq E l r shallow .diff f _ hk]
  have h1 : ((javaClassChange E.T E.lim E.depth a b).comap DiffOpts.flags).check =
      .ok (d.comap DiffOpts.flags) := by rw [Change.comap_check, hd]; rfl
  obtain ⟨c, h2, h3, h4⟩ := child_check "DistClassChange" "Distributed Java Class" f _ _ h1
  refine ⟨c, ?_, by rw [h3, Change.comap_isChange], fun o => by
    rw [h4, Change.comap_isChange, Change.comap_isIgnored]⟩
  show (distClassChange E l r f true).check = _
  unfold distClassChange
  rw [bothFiles_ok hx hy ha hb]
  exact h2

/-- C63: a differing manifest is a change after `check` exactly when the two differ as manifests. -/
theorem C63_manifest (E : DistEnv) (ho : IsSetOrder E.order) (l r : Forest) (f : Str) (shallow : Bool)
    (hk : DistKindOf shallow f .manifest) (x y : Bytes) (a b : Manifest)
    (hx : readEntry l f = .ok x) (hy : readEntry r f = .ok y)
    (ha : emptyManifest.parse x = .ok a) (hb : emptyManifest.parse y = .ok b) :
    ∃ c, (distEntryChange E l r shallow (.diff, f)).check = .ok c ∧
      (c.isChange = true ↔
        a.main ≠ b.main ∨ ∃ s, PyDict.get? a.subs s ≠ PyDict.get? b.subs s) := by
  rw [distEntryChange_eq E l r shallow .diff f _ hk]
  obtain ⟨d, h1, _, h2, _⟩ := C68_report E.order E.text a b ho (C68_parsed _ _ ha).1 (C68_parsed _ _ hb).1
  obtain ⟨c, h3, h4, _⟩ := child_check "DistManifestChange" "Distributed Manifest" f _ _ h1
  refine ⟨c, ?_, by rw [h4, h2]⟩
  show (distManifestChange E l r f true).check = _
  unfold distManifestChange
  rw [bothFiles_ok hx hy ha hb]
  exact h3

/-- C63: a differing JAR is a change after `check` that is not ignored exactly when `jardiff` would
have exit status 1 and no pattern of `--ignore-filenames` matches. -/
theorem C63_jar (E : DistEnv) (l r : Forest) (f : Str) (shallow : Bool)
    (hk : DistKindOf shallow f .jar) (x y : Bytes) (a b : Archive)
    (hx : readEntry l f = .ok x) (hy : readEntry r f = .ok y)
    (ha : E.openJar x = .ok a) (hb : E.openJar y = .ok b) (o : DiffOpts) :
    (∀ e, jarDiffStatus E.toJarEnv a b o = .error e →
      (distEntryChange E l r shallow (.diff, f)).check = .error e) ∧
    ∀ st, jarDiffStatus E.toJarEnv a b o = .ok st →
      ∃ c, (distEntryChange E l r shallow (.diff, f)).check = .ok c ∧
      ((c.isChange = true ∧ c.isIgnored o = false) ↔ st = 1 ∧ ¬ fnmatches f o.filenames = true) := by
  rw [distEntryChange_eq E l r shallow .diff f _ hk]
  show (∀ e, _ → (distJarChange E l r f true).check = .error e) ∧ ∀ st, _ → ∃ c,
    (distJarChange E l r f true).check = .ok c ∧ _
  unfold distJarChange jarDiffStatus
  rw [bothFiles_ok hx hy ha hb]
  cases hc : (jarChange E.toJarEnv a b).check with
  | error e =>
    refine ⟨fun e' he' => ?_, fun st hst => by cases hst⟩
    simp only [Except.map, Except.error.injEq] at he'
    subst he'
    simp only [if_true, Except.map, orRaise, distContent, Change.check, Change.checkAll, hc]
  | ok d =>
    refine ⟨fun e' he' => (by cases he'), fun st hst => ?_⟩
    simp only [Except.map, Except.ok.injEq] at hst
    obtain ⟨c, h1, h2, h3⟩ := child_check "DistJarChange" "Distributed JAR" f _ _ hc
    refine ⟨c, h1, ?_⟩
    have h4 := exit_one_iff o d
    rw [hst] at h4
    rw [h4, h2, Bool.eq_false_iff, ne_eq, h3 o]
    cases d.isChange <;> cases d.isIgnored o <;> simp

/-! ### C64 -/

/-- A text file: its content is the encoding of a text with these lines. -/
def TextFile (F : Forest) (f : Str) (ls : List Str) : Prop :=
  ∃ s, readEntry F f = .ok (encodeUtf8 s) ∧ IsLines s ls

theorem readText_file {F : Forest} {f : Str} {s : Str} (h : readEntry F f = .ok (encodeUtf8 s)) :
    readText F f = .ok (universalNewlines s) := by
  simp only [readText, h, decodeStrict_encode]

/-- C64: after `check`, a text file in both distributions is a change exactly when the lines differ;
it is then ignored exactly when a pattern of `--ignore-filenames` matches, or with
`--ignore-trailing-whitespace` if the lines are equal up to trailing white space. It does not
matter whether the directory comparison found a difference. -/
theorem C64_partial (E : DistEnv) (l r : Forest) (shallow : Bool) (ev : Event)
    (hev : ev = .diff ∨ ev = .same) (f : Str) (hk : DistKindOf shallow f .text) (ls ms : List Str)
    (hl : TextFile l f ls) (hr : TextFile r f ms) :
    ∃ c, (distEntryChange E l r shallow (ev, f)).check = .ok c ∧ (c.isChange = true ↔ ls ≠ ms) ∧
      ∀ o, c.isIgnored o = true ↔ fnmatches f o.filenames = true ∨
        (o.attr "ignore_trailing_whitespace" = true ∧ EqualText ls ms) := by
  obtain ⟨s, hs, hls⟩ := hl
  obtain ⟨t, ht, hms⟩ := hr
  rw [distEntryChange_eq E l r shallow ev f _ hk]
  have hobj : ∃ b, distObject E l r f ev .text = distTextChange l r f b := by
    rcases hev with rfl | rfl
    · exact ⟨true, rfl⟩
    · exact ⟨false, rfl⟩
  obtain ⟨b, hb⟩ := hobj
  rw [hb]
  have hle : lineEnding l r f = true ↔ EqualText ls ms := by
    simp only [lineEnding, readText_file hs, readText_file ht]
    exact alike_iff hls hms
  have heq := universal_eq_iff hls hms
  have hrule : ∀ (o : DiffOpts), (filenameIgnored f o ||
      (lineEnding l r f && o.attr "ignore_trailing_whitespace")) = true ↔
      fnmatches f o.filenames = true ∨ (o.attr "ignore_trailing_whitespace" = true ∧ EqualText ls ms) := by
    intro o
    rw [Bool.or_eq_true, Bool.and_eq_true, hle, and_comm]
    exact Iff.rfl
  by_cases h : ls = ms
  · refine ⟨.super (distTextChange l r f b).hdr none false none [], ?_, ?_, ?_⟩
    · unfold distTextChange
      simp only [readText_file hs, readText_file ht, ne_eq, heq.2 h, not_true_eq_false, if_false,
        orRaise]
      rfl
    · have : (Change.super (distTextChange l r f b).hdr none false none []).isChange = false := rfl
      rw [this]
      simp [h]
    · intro o
      rw [← hrule o]
      show ((_ || _) || _) = true ↔ _
      have hbase : (if ¬ (Change.super (distTextChange l r f b).hdr none false none []).isChange = true
        then false else if ([] : List (Change DiffOpts)).isEmpty then false else Change.allIgnored o []) = false := rfl
      rw [hbase, Bool.or_false]
  · have h' : universalNewlines s ≠ universalNewlines t := fun e => h (heq.1 e)
    let d : Change DiffOpts := .leaf { typeName := "GenericChange", label := "Generic Change".toList }
      (some (checkImpl "Generic Change".toList (.ok (decide (universalNewlines s ≠ universalNewlines t)))
        (.ok (universalNewlines s)) (.ok (universalNewlines t)))) true
      (some ("Generic Change".toList ++ " changed: ".toList ++ universalNewlines s ++ " to ".toList ++
        universalNewlines t))
    have hd : (textChange (universalNewlines s) (universalNewlines t)).check = .ok d := by
      have hdec : decide (universalNewlines s ≠ universalNewlines t) = true := by simpa using h'
      unfold textChange
      simp only [d, hdec]
      rfl
    have hdc : d.isChange = true := rfl
    have hdi : ∀ o, d.isIgnored o = false := fun _ => rfl
    refine ⟨.super (distTextChange l r f b).hdr none d.isChange none [d], ?_, ?_, ?_⟩
    · unfold distTextChange
      simp only [readText_file hs, readText_file ht, if_pos h', orRaise]
      exact check_single _ _ _ _ _ hd
    · have : (Change.super (distTextChange l r f b).hdr none d.isChange none [d]).isChange = true := rfl
      rw [this]
      simp [h]
    · intro o
      rw [single_isIgnored _ (fun o => filenameIgnored f o ||
        (lineEnding l r f && o.attr "ignore_trailing_whitespace")) rfl rfl, hdi o, Bool.and_false,
        Bool.or_false, hrule o]

/-- C64 in full: a text file is a change exactly when its contents differ. -/
def C64_full : Prop :=
  ∀ (E : DistEnv) (l r : Forest) (f : Str), DistKindOf false f .text → ∀ s t : Str,
    readEntry l f = .ok (encodeUtf8 s) → readEntry r f = .ok (encodeUtf8 t) →
    ∃ c, (distEntryChange E l r false (.diff, f)).check = .ok c ∧ (c.isChange = true ↔ s ≠ t)

def demoDist : DistEnv := { demoEnv with openJar := fun _ => .error (.other "BadZipFile") }

/-- Files that differ only in the ends of their lines. -/
theorem C64_full_fails : ¬ C64_full := by
  intro h
  have hk : DistKindOf false "a.txt".toList .text :=
    ⟨rfl, ".txt", by decide, ['a'], by decide⟩
  obtain ⟨c, h1, h2⟩ := h demoDist (.file "a.txt".toList [97, 13, 10] 0 .nil)
    (.file "a.txt".toList [97, 10] 1 .nil) "a.txt".toList hk ['a', '\r', '\n'] ['a', '\n']
    (by decide +kernel) (by decide +kernel)
  obtain ⟨c', h3, h4, _⟩ := C64_partial demoDist (.file "a.txt".toList [97, 13, 10] 0 .nil)
    (.file "a.txt".toList [97, 10] 1 .nil) false .diff (.inl rfl) "a.txt".toList hk [['a'], []]
    [['a'], []] ⟨['a', '\r', '\n'], by decide +kernel, .crlf ['a'] (by decide) (.last [] (by simp))⟩
    ⟨['a', '\n'], by decide +kernel, .lf ['a'] (by decide) (.last [] (by simp))⟩
  rw [h1, Except.ok.injEq] at h3
  subst h3
  exact h4.1 (h2.2 (by decide)) rfl

/-! ### C63 -/

/-- The events for the paths that the comparison covers. -/
theorem event_mem {l r : Forest} (hl : l.Ok) (hr : r.Ok) (hc : NoClash l r)
    (he : (compareDirs l r).2 = none) {ev : Event} {p : List Str} (h : Reporting Shallow l r ev p) :
    eventText [] (ev, p) ∈ (compareDirs l r).1 := by
  rw [compareDirs_text hl hr] at he ⊢
  have ho := (eventPaths_err hl hr).1 he
  exact List.mem_map.2 ⟨(ev, p), eventPaths_complete hl hr hc ho h, rfl⟩

theorem event_of_mem {l r : Forest} (hl : l.Ok) (hr : r.Ok) {e : Event × Str}
    (h : e ∈ (compareDirs l r).1) :
    ∃ p, e = eventText [] (e.1, p) ∧ Denotes e.2 p ∧ Reporting Shallow l r e.1 p := by
  rw [compareDirs_text hl hr] at h
  obtain ⟨⟨ev, p⟩, hp, rfl⟩ := List.mem_map.1 h
  have hd := eventText_denotes (ev, p)
  refine ⟨p, ?_, hd.2, ?_⟩
  · rw [hd.1]
  · rw [hd.1]; exact eventPaths_sound hl hr hp

/-- C63 in full: with nothing ignored, a comparison that ends has status 1 if some file is in both
distributions with different contents. -/
def C63_full : Prop :=
  ∀ (E : DistEnv) (l r : Forest) (shallow : Bool) (o : DiffOpts) (st : Nat), l.Ok → r.Ok →
    o.flags = [] → o.manifestKeys = [] → o.jarEntries = [] → o.filenames = [] →
    distDiffStatus E l r shallow o = .ok st →
    ∀ p b t c u, FileAt l p b t → FileAt r p c u → b ≠ c → st = 1

/-- One binary file, with different contents. -/
theorem C63_full_fails : ¬ C63_full := by
  intro h
  have := h demoDist (.file ['a'] [1] 0 .nil) (.file ['a'] [2, 3] 1 .nil) false (jarOpts [] []) 0
    ⟨by simp [IsName], by decide, trivial⟩ ⟨by simp [IsName], by decide, trivial⟩ rfl rfl rfl rfl (by decide +kernel)
    [['a']] [1] 0 [2, 3] 1 (.here ..) (.here ..) (by decide)
  exact absurd this (by decide)

/-- C63, a finding: a shallow comparison has status 1 exactly if some file is in only one
distribution and not ignored; differing contents do not matter. -/
theorem C63_shallow (E : DistEnv) (l r : Forest) (o : DiffOpts) (st : Nat)
    (h : distDiffStatus E l r true o = .ok st) :
    st = 1 ↔ ∃ ev f, (ev = .left ∨ ev = .right) ∧ (ev, f) ∈ (compareDirs l r).1 ∧
      fnmatches f o.filenames = false := by
  obtain ⟨_, _, _, h4⟩ := C74_status E l r true o st h
  rw [h4]
  constructor
  · rintro ⟨⟨ev, f⟩, hp, c, hc, hch, hig⟩
    have hev : ev = .left ∨ ev = .right ∨ ev = .diff ∨ ev = .same := by cases ev <;> simp
    have hside : ev = .left ∨ ev = .right := by
      rcases hev with h | h | h
      · exact .inl h
      · exact .inr h
      · obtain ⟨c', h5, h6⟩ := C63_other_lost E l r true ev f h (.inl rfl)
        rw [hc, Except.ok.injEq] at h5
        subst h5
        rw [hch] at h6
        cases h6
    obtain ⟨c', h5, _, h7⟩ := C74_checked_one_sided E l r true ev f hside
    rw [hc, Except.ok.injEq] at h5
    subst h5
    refine ⟨ev, f, hside, hp, ?_⟩
    rw [Bool.eq_false_iff, ne_eq, ← h7 o, hig]
    simp
  · rintro ⟨ev, f, hside, hp, hf⟩
    obtain ⟨c', h5, h6, h7⟩ := C74_checked_one_sided E l r true ev f hside
    refine ⟨(ev, f), hp, c', h5, h6, ?_⟩
    rw [Bool.eq_false_iff, ne_eq, h7 o, hf]
    simp

/-- C63 for files that are in one distribution only: the status is 1 unless a pattern of
`--ignore-filenames` matches. -/
theorem C63_one_sided_partial (E : DistEnv) (l r : Forest) (shallow : Bool) (o : DiffOpts) (st : Nat)
    (hl : l.Ok) (hr : r.Ok) (hc : NoClash l r) (h : distDiffStatus E l r shallow o = .ok st)
    (p : List Str) (hp : ¬ ((∃ b t, FileAt l p b t) ↔ ∃ b t, FileAt r p b t))
    (hi : fnmatches (slashed p) o.filenames = false) : st = 1 := by
  obtain ⟨h1, _, _, h4⟩ := C74_status E l r shallow o st h
  have hev : ∃ ev, (ev = .left ∨ ev = .right) ∧ Reporting Shallow l r ev p := by
    by_cases hx : ∃ b t, FileAt l p b t
    · exact ⟨.left, .inl rfl, hx, fun hy => hp ⟨fun _ => hy, fun _ => hx⟩⟩
    · by_cases hy : ∃ b t, FileAt r p b t
      · exact ⟨.right, .inr rfl, hy, hx⟩
      · exact absurd ⟨fun h => absurd h hx, fun h => absurd h hy⟩ hp
  obtain ⟨ev, hside, hrep⟩ := hev
  have hm := event_mem hl hr hc h1 hrep
  have ht : eventText [] (ev, p) = (ev, slashed p) := by
    rcases hside with rfl | rfl <;> simp [eventText]
  rw [ht] at hm
  obtain ⟨c', h5, h6, h7⟩ := C74_checked_one_sided E l r shallow ev (slashed p) hside
  rw [h4]
  refine ⟨_, hm, c', h5, h6, ?_⟩
  rw [Bool.eq_false_iff, ne_eq, h7 o, hi]
  simp

/-- The name under which a file of both distributions is compared. -/
def commonName : List Str → Str
  | [n] => "./".toList ++ n
  | p => slashed p

theorem commonName_eq {ev : Event} (hev : ev = .diff ∨ ev = .same) (p : List Str) :
    eventText [] (ev, p) = (ev, commonName p) := by
  rcases hev with rfl | rfl
  · match p with
    | [] => rfl
    | [n] => rfl
    | a :: b :: q => rfl
  · match p with
    | [] => rfl
    | [n] => rfl
    | a :: b :: q => rfl

theorem commonName_denotes (p : List Str) : Denotes (commonName p) p := by
  have := (eventText_denotes (.diff, p)).2
  rwa [commonName_eq (.inl rfl)] at this

/-- C63 for text files: the status is 1 if the lines of some text file differ, unless that is
ignored. The file counts even if its size and modification time do not differ. Missing: files of
no special kind (`C63_other_lost`); for JARs, classes and manifests see `C63_jar`, `C63_class` and
`C63_manifest`. -/
theorem C63_text_partial (E : DistEnv) (l r : Forest) (o : DiffOpts) (st : Nat) (hl : l.Ok) (hr : r.Ok)
    (hc : NoClash l r) (h : distDiffStatus E l r false o = .ok st) (p : List Str) (s t : Str)
    (u v : Int) (ls ms : List Str) (hs : FileAt l p (encodeUtf8 s) u) (ht : FileAt r p (encodeUtf8 t) v)
    (hls : IsLines s ls) (hms : IsLines t ms) (hk : DistKindOf false (commonName p) .text)
    (hne : ls ≠ ms) (hi : fnmatches (commonName p) o.filenames = false)
    (hw : o.attr "ignore_trailing_whitespace" = false ∨ ¬ EqualText ls ms) : st = 1 := by
  obtain ⟨h1, _, _, h4⟩ := C74_status E l r false o st h
  have hev : ∃ ev, (ev = .diff ∨ ev = .same) ∧ Reporting Shallow l r ev p := by
    by_cases hx : Shallow (encodeUtf8 s) u (encodeUtf8 t) v
    · exact ⟨.same, .inr rfl, _, _, _, _, hs, ht, hx⟩
    · exact ⟨.diff, .inl rfl, _, _, _, _, hs, ht, hx⟩
  obtain ⟨ev, hside, hrep⟩ := hev
  have hm := event_mem hl hr hc h1 hrep
  rw [commonName_eq hside] at hm
  obtain ⟨c, h5, h6, h7⟩ := C64_partial E l r false ev hside (commonName p) hk ls ms
    ⟨s, readEntry_file hl hs (commonName_denotes p), hls⟩
    ⟨t, readEntry_file hr ht (commonName_denotes p), hms⟩
  rw [h4]
  refine ⟨_, hm, c, h5, h6.2 hne, ?_⟩
  rw [Bool.eq_false_iff, ne_eq, h7 o, hi]
  rcases hw with hw | hw <;> simp [hw]

/-- C63 for JARs: the status is 1 if `jardiff` has status 1 for some JAR whose size, or content and
modification time, differ. -/
theorem C63_jar_partial (E : DistEnv) (l r : Forest) (o : DiffOpts) (st : Nat) (hl : l.Ok) (hr : r.Ok)
    (hc : NoClash l r) (h : distDiffStatus E l r false o = .ok st) (p : List Str) (x y : Bytes)
    (u v : Int) (a b : Archive) (hx : FileAt l p x u) (hy : FileAt r p y v) (hxy : ¬ Shallow x u y v)
    (ha : E.openJar x = .ok a) (hb : E.openJar y = .ok b)
    (hj : jarDiffStatus E.toJarEnv a b o = .ok 1) (hk : DistKindOf false (commonName p) .jar)
    (hi : fnmatches (commonName p) o.filenames = false) : st = 1 := by
  obtain ⟨h1, _, _, h4⟩ := C74_status E l r false o st h
  have hm := event_mem hl hr hc h1 (ev := .diff) ⟨_, _, _, _, hx, hy, hxy⟩
  rw [commonName_eq (.inl rfl)] at hm
  obtain ⟨_, h6⟩ := C63_jar E l r (commonName p) false hk x y a b
    (readEntry_file hl hx (commonName_denotes p)) (readEntry_file hr hy (commonName_denotes p)) ha hb o
  obtain ⟨c, h7, h8⟩ := h6 1 hj
  rw [h4]
  exact ⟨_, hm, c, h7, h8.2 ⟨rfl, by rw [hi]; simp⟩⟩

/-! ### C76 -/

/-- Two distributions with the same files; the modification times may differ. -/
def SameTrees (l r : Forest) : Prop :=
  ∀ p b, (∃ t, FileAt l p b t) ↔ ∃ t, FileAt r p b t

/-- C76 in full: distributions with the same files give status 0. -/
def C76_full : Prop :=
  ∀ (E : DistEnv) (l r : Forest) (shallow : Bool) (o : DiffOpts), l.Ok → r.Ok → SameTrees l r →
    distDiffStatus E l r shallow o = .ok 0

/-- C76 for distributions with at most one common subdirectory in each directory and with text files
in UTF-8, or compared shallowly: the status is 0, whatever the options are. Missing: other
distributions, see `C76_subdirs` and `C76_undecodable`. -/
theorem C76_partial (E : DistEnv) (l r : Forest) (shallow : Bool) (o : DiffOpts) (hl : l.Ok) (hr : r.Ok)
    (hs : SameTrees l r) (ho : OneCommon l r)
    (ht : ∀ p b t, FileAt l p b t → DistKindOf shallow (commonName p) .text → ∃ s, b = encodeUtf8 s) :
    distDiffStatus E l r shallow o = .ok 0 := by
  have he : (compareDirs l r).2 = none := (C59_subdirs l r hl hr).1.2 ho
  have hok : ∀ e ∈ (compareDirs l r).1, ∃ c, (distEntryChange E l r shallow e).check = .ok c ∧
      c.isChange = false := by
    rintro ⟨ev, f⟩ hm
    obtain ⟨p, h1, h2, h3⟩ := event_of_mem hl hr hm
    simp only at h1 h2 h3
    cases ev with
    | left =>
      obtain ⟨⟨b, t, hb⟩, hn⟩ := h3
      obtain ⟨u, hu⟩ := (hs p b).1 ⟨t, hb⟩
      exact absurd ⟨b, u, hu⟩ hn
    | right =>
      obtain ⟨⟨b, t, hb⟩, hn⟩ := h3
      obtain ⟨u, hu⟩ := (hs p b).2 ⟨t, hb⟩
      exact absurd ⟨b, u, hu⟩ hn
    | diff =>
      obtain ⟨b, t, c, u, hb, hc, hne⟩ := h3
      obtain ⟨w, hw⟩ := (hs p b).1 ⟨t, hb⟩
      exact absurd (.inl (hw.unique hr hc).1) hne
    | same =>
      obtain ⟨b, t, c, u, hb, hc, _⟩ := h3
      obtain ⟨w, hw⟩ := (hs p b).1 ⟨t, hb⟩
      have hbc := (hw.unique hr hc).1
      subst hbc
      rw [commonName_eq (.inr rfl), Prod.mk.injEq] at h1
      obtain ⟨k, hk, _⟩ := distKind_unique shallow f
      by_cases hkt : k = .text
      · subst hkt
        obtain ⟨s, rfl⟩ := ht p b t hb (by rw [← h1.2]; exact hk)
        obtain ⟨ls, hls⟩ := isLines_exists s
        obtain ⟨c, h5, h6, _⟩ := C64_partial E l r shallow .same (.inr rfl) f hk ls ls
          ⟨s, readEntry_file hl hb h2, hls⟩ ⟨s, readEntry_file hr hc h2, hls⟩
        exact ⟨c, h5, by rw [Bool.eq_false_iff, ne_eq, h6]; simp⟩
      · exact same_check E l r shallow f k hk hkt
  obtain ⟨st, hst⟩ := dist_ends E l r shallow o he fun e hm => by
    obtain ⟨c, hc, _⟩ := hok e hm
    exact ⟨c, hc⟩
  obtain ⟨_, _, h5, h6⟩ := C74_status E l r shallow o st hst
  rcases h5 with rfl | rfl
  · exact hst
  · obtain ⟨p, hp, c, hc, hch, _⟩ := h6.1 rfl
    obtain ⟨c', hc', hch'⟩ := hok p hp
    rw [hc, Except.ok.injEq] at hc'
    rw [← hc', hch] at hch'
    cases hch'

/-- C76, a finding: a distribution with two subdirectories in one directory cannot be compared with
itself. -/
theorem C76_subdirs (E : DistEnv) (l r : Forest) (shallow : Bool) (o : DiffOpts) (hl : l.Ok) (hr : r.Ok)
    (h : ¬ OneCommon l r) : distDiffStatus E l r shallow o = .error .typeError := by
  obtain ⟨h1, h2⟩ := C59_subdirs l r hl hr
  have h3 : (compareDirs l r).2 = some .typeError := h2.resolve_left fun h' => h (h1.1 h')
  exact (C74_raises E l r shallow (compareDirs l r).1 .typeError (Prod.ext rfl h3) o).2

/-- C76, a finding: if some text file of both distributions is not UTF-8, they cannot be compared,
even if they are the same. -/
theorem C76_undecodable (E : DistEnv) (l r : Forest) (o : DiffOpts) (hl : l.Ok) (hr : r.Ok)
    (hc : NoClash l r) (p : List Str) (b c : Bytes) (t u : Int) (hb : FileAt l p b t)
    (hc' : FileAt r p c u) (hk : DistKindOf false (commonName p) .text)
    (hn : ∀ s, b ≠ encodeUtf8 s) : ∀ st, distDiffStatus E l r false o ≠ .ok st := by
  intro st h
  obtain ⟨h1, h2, _⟩ := C74_status E l r false o st h
  have hev : ∃ ev, (ev = .diff ∨ ev = .same) ∧ Reporting Shallow l r ev p := by
    by_cases hx : Shallow b t c u
    · exact ⟨.same, .inr rfl, _, _, _, _, hb, hc', hx⟩
    · exact ⟨.diff, .inl rfl, _, _, _, _, hb, hc', hx⟩
  obtain ⟨ev, hside, hrep⟩ := hev
  have hm := event_mem hl hr hc h1 hrep
  rw [commonName_eq hside] at hm
  obtain ⟨x, hx⟩ := h2 _ hm
  rw [distEntryChange_eq E l r false ev _ _ hk] at hx
  have hrd : readText l (commonName p) = .error .unicodeDecodeError := by
    unfold readText
    rw [readEntry_file hl hb (commonName_denotes p)]
    simp only
    cases hd : decodeStrict b with
    | none => rfl
    | some s => exact absurd ((decodeStrict_iff b s).1 hd) (hn s)
  have hobj : ∃ q, distObject E l r (commonName p) ev .text = distTextChange l r (commonName p) q := by
    rcases hside with rfl | rfl
    · exact ⟨true, rfl⟩
    · exact ⟨false, rfl⟩
  obtain ⟨q, hq⟩ := hobj
  rw [hq] at hx
  unfold distTextChange distContent at hx
  rw [hrd] at hx
  simp only [orRaise, raising, Change.check, Change.checkAll] at hx
  cases hx

theorem C76_full_fails : ¬ C76_full := by
  intro h
  have hok : (Forest.dir ['a'] .nil (.dir ['b'] .nil .nil)).Ok :=
    ⟨by simp [IsName], by decide, trivial, by simp [IsName], by decide, trivial, trivial⟩
  have := h demoDist _ _ false (jarOpts [] []) hok hok fun _ _ => Iff.rfl
  rw [C76_subdirs demoDist _ _ false _ hok hok] at this
  · cases this
  · intro ho
    have := ho [] ['a'] ['b'] (.here ..) (.here ..) (.afterDir _ _ (.here ..)) (.afterDir _ _ (.here ..))
    exact absurd this (by decide)

/-! ### C75 -/

/-- The report about two JARs decides what the comparison decides. -/
theorem jarReport_rel (E : JarEnv) (l r : Archive) (o : DiffOpts) :
    (∀ e, (jarChange E l r).check = .error e → jarReportCheck E l r o = .error e) ∧
    ∀ d, (jarChange E l r).check = .ok d → ∃ d', jarReportCheck E l r o = .ok d' ∧
      d'.isChange = d.isChange ∧ Change.exitStatus o d' = Change.exitStatus o d := by
  have hst := C71_reports E l r o
  unfold jarReportStatus jarDiffStatus at hst
  constructor
  · intro e he
    rw [he] at hst
    cases hj : jarReportCheck E l r o with
    | error e' => rw [hj] at hst; simpa [Except.map] using hst
    | ok d' => rw [hj] at hst; cases hst
  · intro d hd
    rw [hd] at hst
    cases hj : jarReportCheck E l r o with
    | error e' => rw [hj] at hst; cases hst
    | ok d' =>
      rw [hj] at hst
      refine ⟨d', rfl, ?_, by simpa [Except.map] using hst⟩
      obtain ⟨t, ht, _⟩ := jarTypeChange_check l r
      rw [jarChange_check E l r t ht] at hd
      unfold jarReportCheck at hj
      rw [ht] at hj
      cases hc : jarContentsChildren E l r with
      | error e => rw [hc] at hd; cases hd
      | ok cs =>
        rw [hc] at hd hj
        simp only at hd hj
        obtain ⟨_, h2⟩ := reportAll_eq o cs false
        cases hr : Change.checkAll cs false with
        | error e => rw [hr] at hd; cases hd
        | ok p =>
          obtain ⟨cs', c⟩ := p
          obtain ⟨cs'', h3, _⟩ := h2 cs' c hr
          rw [hr] at hd
          rw [h3] at hj
          simp only [Except.ok.injEq] at hd hj
          rw [← hd, ← hj]
          rfl

/-- Status and flag of a composite with one child and a rule. -/
theorem single_exit {O : Type} (h : Hdr O) (rule : O → Bool) (hk : h.kind = .plain)
    (hi : h.ign = .orElse rule) (d : Change O) (o : O) :
    Change.exitStatus o (.super h none d.isChange none [d]) =
      if rule o then 0 else Change.exitStatus o d := by
  unfold Change.exitStatus
  rw [single_isIgnored h rule hk hi]
  have : (Change.super h none d.isChange none [d]).isChange = d.isChange := by
    simp only [Change.isChange, hk]
  rw [this]
  generalize d.isChange = x
  generalize d.isIgnored o = y
  cases rule o <;> cases x <;> cases y <;> rfl

/-- A sub-report: running it decides what checking the change decides. -/
theorem distRun_rel (E : DistEnv) (l r : Forest) (shallow : Bool) (o : DiffOpts) (ev : Event) (f : Str)
    (hrep : isDistReported (distEntryChange E l r shallow (ev, f)) = true) :
    (∀ e, (distEntryChange E l r shallow (ev, f)).check = .error e →
      distRun E l r o (distEntryChange E l r shallow (ev, f)) = .error e) ∧
    ∀ d, (distEntryChange E l r shallow (ev, f)).check = .ok d →
      ∃ d', distRun E l r o (distEntryChange E l r shallow (ev, f)) = .ok d' ∧
        d'.isChange = d.isChange ∧ Change.exitStatus o d' = Change.exitStatus o d := by
  obtain ⟨k, hk, _⟩ := distKind_unique shallow f
  obtain ⟨hname, hentry, _, hch⟩ := C74_entry E l r shallow ev f k hk
  unfold isDistReported at hrep
  rw [Bool.and_eq_true, Bool.or_eq_true, decide_eq_true_iff, decide_eq_true_iff, hname, hch] at hrep
  obtain ⟨hcls, hne⟩ := hrep
  have hev : ev = .diff ∧ (k = .jar ∨ k = .cls) := by
    clear hname hentry hch hk
    cases ev <;> cases k <;> simp_all [distClass]
  obtain ⟨rfl, hkk⟩ := hev
  have plain : distReportCheck E l r o (distEntryChange E l r shallow (.diff, f)) =
        (distEntryChange E l r shallow (.diff, f)).check →
      (∀ e, (distEntryChange E l r shallow (.diff, f)).check = .error e →
        distRun E l r o (distEntryChange E l r shallow (.diff, f)) = .error e) ∧
      ∀ d, (distEntryChange E l r shallow (.diff, f)).check = .ok d →
        ∃ d', distRun E l r o (distEntryChange E l r shallow (.diff, f)) = .ok d' ∧
          d'.isChange = d.isChange ∧ Change.exitStatus o d' = Change.exitStatus o d := by
    intro h
    unfold distRun
    rw [h]
    refine ⟨fun e he => by rw [he]; rfl, fun d hd => ⟨d.squash false (some o), by rw [hd]; rfl,
      Change.squash_isChange _ _ _, squash_exit _ _⟩⟩
  rcases hkk with rfl | rfl
  · -- a JAR
    have hobj := distEntryChange_eq E l r shallow .diff f _ hk
    unfold distRun distReportCheck
    rw [if_pos (by rw [hname]; rfl), hentry]
    rw [hobj]
    show (∀ e, (distJarChange E l r f true).check = .error e → _) ∧ ∀ d,
      (distJarChange E l r f true).check = .ok d → _
    cases hb : bothFiles E.openJar l r f with
    | error e0 =>
      have hchk : (distJarChange E l r f true).check = .error e0 := by
        unfold distJarChange
        rw [hb]
        simp only [if_true, Except.map, orRaise, raising, distContent, Change.check, Change.checkAll]
      refine ⟨fun e he => ?_, fun d hd => ?_⟩
      · rw [hchk] at he
        simpa [hb, Except.map] using he
      · rw [hchk] at hd; cases hd
    | ok ab =>
      obtain ⟨a, b⟩ := ab
      obtain ⟨h1, h2⟩ := jarReport_rel E.toJarEnv a b o
      cases hc : (jarChange E.toJarEnv a b).check with
      | error e0 =>
        have hchk : (distJarChange E l r f true).check = .error e0 := by
          unfold distJarChange
          rw [hb]
          simp only [if_true, Except.map, orRaise, distContent, Change.check, Change.checkAll, hc]
        refine ⟨fun e he => ?_, fun d hd => ?_⟩
        · rw [hchk, Except.error.injEq] at he
          subst he
          simp only [hb, h1 _ hc, Except.map]
        · rw [hchk] at hd; cases hd
      | ok d0 =>
        obtain ⟨d', h3, h4, h5⟩ := h2 d0 hc
        have hchk : (distJarChange E l r f true).check =
            .ok (.super (distJarChange E l r f true).hdr none d0.isChange none [d0]) := by
          unfold distJarChange
          rw [hb]
          exact check_single _ _ _ _ _ hc
        refine ⟨fun e he => ?_, fun d hd => ?_⟩
        · rw [hchk] at he; cases he
        · rw [hchk, Except.ok.injEq] at hd
          subst hd
          simp only [hb, h3, Except.map]
          refine ⟨_, rfl, ?_, ?_⟩
          · rw [Change.squash_isChange]
            have e1 : ∀ (h : Hdr DiffOpts), h.kind = .plain → ∀ x ys,
                (Change.super h none x none ys).isChange = x := fun h hk x ys => by
              simp only [Change.isChange, hk]
            rw [e1 _ rfl, e1 _ rfl, h4]
          · rw [squash_exit, single_exit _ (filenameIgnored f) rfl rfl,
              single_exit _ (filenameIgnored f) rfl rfl, h5]
  · apply plain
    unfold distReportCheck
    rw [if_neg (by rw [hname]; decide)]

/-- The loop of the report decides what the plain loop decides. -/
theorem distLoop_eq (E : DistEnv) (l r : Forest) (shallow : Bool) (o : DiffOpts)
    (cs : List (Change DiffOpts)) (hcs : ∀ c ∈ cs, ∃ e, c = distEntryChange E l r shallow e) (b : Bool) :
    (∀ e, Change.checkAll cs b = .error e → seqLoop (distJobs E l r o) cs b = .error e) ∧
    ∀ cs' b', Change.checkAll cs b = .ok (cs', b') →
      ∃ cs'', seqLoop (distJobs E l r o) cs b = .ok (cs'', b') ∧
        cs''.map (Change.exitStatus o) = cs'.map (Change.exitStatus o) ∧
        cs''.map Change.isChange = cs'.map Change.isChange := by
  induction cs generalizing b with
  | nil =>
    refine ⟨(fun e h => by cases h), fun cs' b' h => ?_⟩
    simp only [Change.checkAll, Except.ok.injEq, Prod.mk.injEq] at h
    obtain ⟨rfl, rfl⟩ := h
    exact ⟨[], rfl, rfl, rfl⟩
  | cons c cs ih =>
    have ih := fun b => ih (fun x hx => hcs x (by simp [hx])) b
    have hstep : (∀ e, c.check = .error e →
          (if isDistReported c then distRun E l r o c else c.check) = .error e) ∧
        ∀ d, c.check = .ok d → ∃ d', (if isDistReported c then distRun E l r o c else c.check) = .ok d' ∧
          d'.isChange = d.isChange ∧ Change.exitStatus o d' = Change.exitStatus o d := by
      obtain ⟨⟨ev, f⟩, he⟩ := hcs c (by simp)
      by_cases hrep : isDistReported c = true
      · simp only [hrep, if_true]
        rw [he] at hrep ⊢
        exact distRun_rel E l r shallow o ev f hrep
      · simp only [hrep, if_false]
        exact ⟨fun e h => h, fun d h => ⟨d, h, rfl, rfl⟩⟩
    have hstep : (∀ e, c.check = .error e →
          (if (distJobs E l r o).isReport c then (distJobs E l r o).run c else (distJobs E l r o).check c) =
            .error e) ∧
        ∀ d, c.check = .ok d →
          ∃ d', (if (distJobs E l r o).isReport c then (distJobs E l r o).run c
              else (distJobs E l r o).check c) = .ok d' ∧
            d'.isChange = d.isChange ∧ Change.exitStatus o d' = Change.exitStatus o d := hstep
    have hic : ∀ x, (distJobs E l r o).isChange x = x.isChange := fun _ => rfl
    rw [seqLoop]
    simp only [hic]
    simp only [Change.checkAll]
    cases hc : c.check with
    | error e0 =>
      refine ⟨fun e h => ?_, fun cs' b' h => by cases h⟩
      simp only [Except.error.injEq] at h
      subst h
      rw [hstep.1 _ hc]
    | ok d =>
      obtain ⟨d', h1, h2, h3⟩ := hstep.2 d hc
      rw [h1]
      simp only [h2]
      obtain ⟨i1, i2⟩ := ih (b || d.isChange)
      cases hr : Change.checkAll cs (b || d.isChange) with
      | error e0 =>
        refine ⟨fun e h => ?_, fun cs' b' h => by cases h⟩
        simp only [Except.error.injEq] at h
        subst h
        rw [i1 _ hr]
      | ok p =>
        obtain ⟨ds, x⟩ := p
        obtain ⟨ds', j1, j2, j3⟩ := i2 ds x hr
        refine ⟨(fun e h => by cases h), fun cs' b' h => ?_⟩
        simp only [Except.ok.injEq, Prod.mk.injEq] at h
        obtain ⟨rfl, rfl⟩ := h
        rw [j1]
        exact ⟨_, rfl, by simp [h3, j2], by simp [h2, j3]⟩

/-- C75: with reports and without worker processes the exit status is what it is without reports,
and so is the exception that is raised, if any. -/
theorem C75_reports (E : DistEnv) (l r : Forest) (shallow : Bool) (o : DiffOpts) :
    distReportStatus E l r shallow o = distDiffStatus E l r shallow o := by
  unfold distReportStatus distDiffStatus distChange
  cases he : compareDirs l r with
  | mk evs err =>
    cases err with
    | some e =>
      have : distChildren E l r shallow = .error e := by simp only [distChildren, he]
      rw [this]
      rfl
    | none =>
      obtain ⟨cs, h1, _, h2, _⟩ := C74_collected E l r shallow evs he
      rw [h1]
      simp only [orRaise, Change.check]
      obtain ⟨h3, h4⟩ := distLoop_eq E l r shallow o cs (fun c hc => by
        obtain ⟨e, _, rfl⟩ := List.mem_map.1 (h2.mem_iff.1 hc)
        exact ⟨e, rfl⟩) false
      cases hr : Change.checkAll cs false with
      | error e => simp only [seqCheck, h3 e hr, Except.map]
      | ok p =>
        obtain ⟨cs', c⟩ := p
        obtain ⟨cs'', h5, h6, h7⟩ := h4 cs' c hr
        have hb := (Change.checkAll_ok _ _ _ _ hr).2.2.1
        simp only [Bool.false_eq_true, false_or] at hb
        simp only [seqCheck, h5, Except.map, distReport]
        rw [exit_super o _ rfl rfl c cs' hb, exit_super o _ rfl rfl c cs''
          (hb.trans (exists_map_eq _ _ _ _ h7 true).symm)]
        simp only [exists_map_eq _ _ _ _ h6 1]

/-- C75: with worker processes too, if the check ends: for every number of processes and every
schedule the object that the status is taken from gives the status without reports. -/
theorem C75_parallel (E : DistEnv) (l r : Forest) (shallow : Bool) (o : DiffOpts) (P : Int)
    (cs : List (Change DiffOpts)) (hcs : distChildren E l r shallow = .ok cs)
    (s : MpState (Change DiffOpts)) (h : MpReach (distJobs E l r o) P cs s) (c : Bool)
    (hd : s.main = .done c) :
    ∃ xs, s.changes = xs.map some ∧
      distDiffStatus E l r shallow o = .ok (Change.exitStatus o (distReport (xs, c))) := by
  obtain ⟨xs, h1, h2, _⟩ := C62_outcome (distJobs E l r o) P cs s h c hd
  refine ⟨xs, h2, ?_⟩
  rw [← C75_reports]
  simp only [distReportStatus, hcs, h1, Except.map]

/-! ### C77 -/

/-- C77 in full: a file whose path matches a pattern of `--ignore-filenames` is ignored. -/
def C77_full : Prop :=
  ∀ (E : DistEnv) (l r : Forest) (shallow : Bool) (o : DiffOpts) (ev : Event) (p : List Str)
    (c : Change DiffOpts), l.Ok → r.Ok → Reporting Shallow l r ev p →
    (distEntryChange E l r shallow (eventText [] (ev, p))).check = .ok c →
    fnmatches (slashed p) o.filenames = true → c.isIgnored o = true

/-- Every object for a file is ignored if a pattern matches the name under which it is compared. -/
theorem C77_name (E : DistEnv) (l r : Forest) (shallow : Bool) (o : DiffOpts) (ev : Event) (f : Str)
    (c : Change DiffOpts) (h : (distEntryChange E l r shallow (ev, f)).check = .ok c)
    (hf : fnmatches f o.filenames = true) : c.isIgnored o = true := by
  obtain ⟨k, hk, _⟩ := distKind_unique shallow f
  rw [distEntryChange_eq E l r shallow ev f k hk] at h
  have hsup : ∃ (hd : Hdr DiffOpts) (rule : DiffOpts → Bool) (b : Bool) (cs : List (Change DiffOpts)),
      distObject E l r f ev k = .super hd none b none cs ∧ hd.ign = .orElse rule ∧ rule o = true := by
    cases k <;> cases ev <;>
      first
      | exact ⟨_, _, _, _, rfl, rfl, hf⟩
      | exact ⟨_, _, _, _, rfl, rfl, by simp [filenameIgnored, hf]⟩
  obtain ⟨hd, rule, b, cs, h1, h2, h3⟩ := hsup
  rw [h1] at h
  obtain ⟨b', d', cs', rfl⟩ := check_super h
  simp only [Change.isIgnored, h2, h3, Bool.true_or]

/-- C77 for all files but the files of both distributions that are not in a directory. Missing:
those, for which the pattern is matched against the name with `./` in front; see also
`C77_star`. -/
theorem C77_partial (E : DistEnv) (l r : Forest) (shallow : Bool) (o : DiffOpts) (ev : Event)
    (p : List Str) (c : Change DiffOpts) (hp : ev = .left ∨ ev = .right ∨ p.length ≠ 1)
    (h : (distEntryChange E l r shallow (eventText [] (ev, p))).check = .ok c)
    (hf : fnmatches (slashed p) o.filenames = true) : c.isIgnored o = true := by
  have : eventText [] (ev, p) = (ev, slashed p) := by
    cases ev with
    | left => rfl
    | right => rfl
    | diff =>
      match p, hp with
      | [], _ => rfl
      | [n], hp => simp at hp
      | a :: b :: q, _ => rfl
    | same =>
      match p, hp with
      | [], _ => rfl
      | [n], hp => simp at hp
      | a :: b :: q, _ => rfl
  rw [this] at h
  exact C77_name E l r shallow o ev _ c h hf

/-- C77: patterns that begin with a star work for all files. -/
theorem C77_star (E : DistEnv) (l r : Forest) (shallow : Bool) (o : DiffOpts) (ev : Event)
    (p : List Str) (c : Change DiffOpts) (q : Str) (hq : '*' :: q ∈ o.filenames)
    (h : (distEntryChange E l r shallow (eventText [] (ev, p))).check = .ok c)
    (hf : fnmatch (slashed p) ('*' :: q) = true) : c.isIgnored o = true := by
  have hd := (eventText_denotes (ev, p)).2
  have hfn : fnmatches (eventText [] (ev, p)).2 o.filenames = true := by
    rw [C61_fnmatches]
    refine ⟨_, hq, by simp, ?_⟩
    have hg := (C61_fnmatch _ _).1 hf
    rcases hd with hd | hd
    · rw [hd]; exact hg
    · rw [hd]
      generalize hs : slashed p = s at hg
      cases hg with
      | star _ a b hb => rw [← List.append_assoc]; exact .star _ _ _ hb
      | lit _ _ _ hc _ => exact absurd rfl hc.1
  exact C77_name E l r shallow o _ _ c h hfn

/-- The pattern `a.txt` does not apply to a file `a.txt` that has changed. -/
theorem C77_full_fails : ¬ C77_full := by
  intro h
  let l : Forest := .file "a.txt".toList [97] 0 .nil
  let r : Forest := .file "a.txt".toList [97, 98] 1 .nil
  have hl : l.Ok := ⟨by unfold IsName; decide +kernel, by decide, trivial⟩
  have hr : r.Ok := ⟨by unfold IsName; decide +kernel, by decide, trivial⟩
  have hk : DistKindOf false (commonName ["a.txt".toList]) .text :=
    ⟨rfl, ".txt", by decide, "./a".toList, by decide +kernel⟩
  obtain ⟨c, h1, _, h3⟩ := C64_partial demoDist l r false .diff (.inl rfl) _ hk [['a']] [['a', 'b']]
    ⟨['a'], by decide +kernel, .last _ (by decide)⟩ ⟨['a', 'b'], by decide +kernel, .last _ (by decide)⟩
  let o : DiffOpts := ⟨[], [], [], ["a.txt".toList]⟩
  have := h demoDist l r false o .diff ["a.txt".toList] c hl hr
    ⟨_, _, _, _, .here .., .here .., by unfold Shallow; decide⟩ h1 (by decide +kernel)
  rw [h3 o] at this
  rcases this with h4 | h4
  · exact absurd h4 (by decide +kernel)
  · exact absurd h4.1 (by decide +kernel)

/-! ### Examples -/

/-- A JAR that cannot be opened, a class, a text, a manifest and another file, in a directory. -/
def demoTree (text other : Bytes) (time : Int) : Forest :=
  .dir ['d'] (.file "a.txt".toList text time (.file "b.bin".toList other time .nil))
    (.file "c.jar".toList [1] 5 (.file "MANIFEST.MF".toList [65] 5 .nil))

example : [("a.jar", DistKind.jar), ("x/y.war", .jar), ("B.class", .cls), ("a.properties", .text),
      ("./MANIFEST.MF", .manifest), ("MANIFEST.MF", .other), ("a.TXT", .other)].all (fun p =>
    (distEntryChange demoDist .nil .nil false (.same, p.1.toList)).hdr.typeName ==
      distClass .same p.2) = true := by decide +kernel

example : distDiffStatus demoDist (demoTree [97] [1] 0) (demoTree [97] [1] 1) false (jarOpts [] []) =
    .ok 0 := by decide +kernel

example : distDiffStatus demoDist (demoTree [97] [1] 0) (demoTree [98] [1] 0) false (jarOpts [] []) =
      .ok 1 ∧
    distReportStatus demoDist (demoTree [97] [1] 0) (demoTree [98] [1] 0) false (jarOpts [] []) =
      .ok 1 ∧
    distDiffStatus demoDist (demoTree [97] [1] 0) (demoTree [98] [1] 1) true (jarOpts [] []) =
      .ok 0 ∧
    distDiffStatus demoDist (demoTree [97] [1] 0) (demoTree [97, 32, 10] [1] 0) false
      (jarOpts [("ignore_trailing_whitespace".toList, true)] []) = .ok 0 := by decide +kernel

/-- A text that is not UTF-8. -/
example : distDiffStatus demoDist (demoTree [255] [1] 0) (demoTree [255] [1] 0) false (jarOpts [] []) =
    .error .unicodeDecodeError := by decide +kernel

end Javatools
