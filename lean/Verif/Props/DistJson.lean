import Verif.Props.JarJson
import Verif.Props.DistLoud
/-
C177: the JSON report of a distribution comparison has one object for every file.
-/
namespace Javatools
open Change Spec

/-- What a listing should say of a file, for the event and the kind of the file. -/
def fileItem (ev : Event) (k : DistKind) (f : Str) : String × Option Str × Bool × Bool :=
  (distClass ev k, some f, decide (ev = .right), decide (ev = .left))

/-- The files of the two distributions, each once, with what happened to it. -/
def ListsFiles (shallow : Bool) (l r : Forest) (items : List (String × Option Str × Bool × Bool)) : Prop :=
  ∃ (evs : List (Event × Str)) (ps : List (Event × List Str)) (kind : Str → DistKind),
    Reports SameContent l r evs ps ∧ (∀ f, DistKindOf shallow f (kind f)) ∧
    items.Perm (evs.map fun p => fileItem p.1 (kind p.2) p.2)

/-- C177 in full: with `--show-ignored` and `--show-unchanged` the JSON report has exactly one object for every
file of either distribution; otherwise it has one for every file that is not the same in both and that
`--ignore-filenames` does not name. -/
def C177_full : Prop := ∀ (E : DistEnv) (l r : Forest) (shallow : Bool) (c : Change DiffOpts) (o : DiffOpts),
  l.Ok → r.Ok → (distChange E l r shallow).check = .ok c →
  ListsFiles shallow l r ((toJson o ⟨true, true⟩ c).kids.map Json.item) ∧
  ∀ ev p, ev ≠ .same → Reporting SameContent l r ev p → fnmatches (slashed p) o.filenames = false →
    fnmatches ("./".toList ++ slashed p) o.filenames = false →
    ∃ f k, Denotes f p ∧ DistKindOf shallow f k ∧
      fileItem ev k f ∈ (toJson o ⟨false, false⟩ c).kids.map Json.item

theorem file_item {ev : Event} {k : DistKind} {f : Str} (h : f ≠ []) :
    (distClass ev k, Change.entryShown (some f), eventKind ev == .addition, eventKind ev == .removal) = fileItem ev k f := by
  have : Change.entryShown (some f) = some f := by
    cases f with
    | nil => exact absurd rfl h
    | cons => rfl
  rw [fileItem, this]
  cases ev <;> rfl

/-- What the report lists, before the options are looked at. -/
theorem dist_listing (E : DistEnv) (l r : Forest) (shallow : Bool) (hl : l.Ok) (hr : r.Ok) (hc : NoClash l r)
    (hs : ∀ p b c t, FileAt l p b t → FileAt r p c t → b.length = c.length → b = c)
    (c : Change DiffOpts) (h : (distChange E l r shallow).check = .ok c) :
    ∃ (evs : List (Event × Str)) (ps : List (Event × List Str)) (cs : List (Change DiffOpts)),
      Reports SameContent l r evs ps ∧
      cs.Perm (evs.map (distEntryChange E l r shallow)) ∧
      (∀ p ∈ evs, (distEntryChange E l r shallow p).check = .ok (distEntryChange E l r shallow p).checked) ∧
      ∀ o s, (toJson o s c).kids = ((cs.map checked).filter (Visible o s)).map (toJson o s) := by
  cases hd : compareDirs l r with
  | mk evs0 err =>
  cases err with
  | some e =>
    have := (C74_raises E l r shallow evs0 e hd { flags := [], manifestKeys := [], jarEntries := [], filenames := [] }).1
    rw [h] at this; simp at this
  | none =>
    obtain ⟨evs, ps, he, h2⟩ := C59_partial l r hl hr hc ((C59_subdirs l r hl hr).1.1 (by rw [hd])) hs
    obtain ⟨cs, h1, _, h3, _⟩ := C74_collected E l r shallow evs he
    rw [distChange, h1, orRaise, check] at h
    split at h
    · simp at h
    · rename_i kids b hk
      simp only [Except.ok.injEq] at h
      subst h
      obtain ⟨rfl, h6⟩ := checkAll_checked _ _ _ _ hk
      refine ⟨evs, ps, cs, h2, h3, fun p hp => h6 _ (h3.mem_iff.2 (List.mem_map_of_mem hp)), fun o s => ?_⟩
      simp only [toJson, Json.kids, Option.getD_some, toJsonKept_eq]

theorem event_named {l r : Forest} (hl : l.Ok) (hr : r.Ok) {evs : List (Event × Str)} {ps : List (Event × List Str)}
    (h : Reports SameContent l r evs ps) {e : Event × Str} (he : e ∈ evs) : e.2 ≠ [] := by
  obtain ⟨q, hd, hrep⟩ := reports_path h he
  obtain ⟨n1, n2⟩ := reporting_named hl hr hrep
  have hsl := (slashed_last n1 n2).1
  rcases hd with hd | hd
  · rw [hd]; exact hsl
  · rw [hd]; exact fun e => hsl (List.append_eq_nil_iff.1 e).2

theorem path_event {l r : Forest} {evs : List (Event × Str)} {ps : List (Event × List Str)}
    (h : Reports SameContent l r evs ps) {ev : Event} {p : List Str} (hp : Reporting SameContent l r ev p) :
    ∃ f, Denotes f p ∧ (ev, f) ∈ evs := by
  obtain ⟨i, hi, he⟩ := List.getElem_of_mem ((h.all ev p).2 hp)
  have hj : i < evs.length := h.text.1 ▸ hi
  have hz : (evs[i], ps[i]) ∈ evs.zip ps := by
    rw [show (evs[i], ps[i]) = (evs.zip ps)[i]'(by simp; omega) by simp]
    exact List.getElem_mem _
  obtain ⟨h1, h2⟩ := h.text.2 _ hz
  rw [he] at h1 h2
  refine ⟨evs[i].2, h2, ?_⟩
  have : (ev, evs[i].2) = evs[i] := Prod.ext h1.symm rfl
  rw [this]
  exact List.getElem_mem hj

/-- A text file that is the same in both is not a change. -/
theorem same_text {l r : Forest} {f : Str} {b : Bool} {c : Change DiffOpts} (he : readEntry l f = readEntry r f)
    (h : (distTextChange l r f b).check = .ok c) : c.isChange = false := by
  have hrt : readText l f = readText r f := by unfold readText; rw [he]
  unfold distTextChange at h
  rw [hrt] at h
  cases hra : readText r f with
  | error e =>
    rw [hra] at h
    unfold distContent orRaise at h
    simp only [Change.check, Change.checkAll, raising] at h
    cases h
  | ok a =>
    rw [hra] at h
    simp only [ne_eq, not_true_eq_false, if_false, orRaise] at h
    unfold distContent at h
    simp only [Change.check, Change.checkAll, Except.ok.injEq] at h
    rw [← h]
    rfl

theorem same_unchanged (E : DistEnv) {l r : Forest} (shallow : Bool) (hl : l.Ok) (hr : r.Ok)
    {evs : List (Event × Str)} {ps : List (Event × List Str)} (h : Reports SameContent l r evs ps) {f : Str}
    (hf : (.same, f) ∈ evs) {c : Change DiffOpts} (hc : (distEntryChange E l r shallow (.same, f)).check = .ok c) :
    c.isChange = false := by
  obtain ⟨k, hk, _⟩ := distKind_unique shallow f
  by_cases ht : k = .text
  · subst ht
    rw [distEntryChange_eq E l r shallow .same f _ hk] at hc
    obtain ⟨p, hd, b, t, c', u, hb, hc', he⟩ := reports_path h hf
    refine same_text ?_ hc
    rw [readEntry_file hl hb hd, readEntry_file hr hc' hd]
    exact congrArg _ he
  · obtain ⟨c', h1, h2⟩ := same_check E l r shallow f k hk ht
    rw [hc, Except.ok.injEq] at h1
    rw [h1, h2]

/-- C177, proved part, where no name is a file on one side and a directory on the other and files of the same size
and time are the same. With the options the report has exactly one object for every file. Without them it lists no
file twice, and only files that are not the same and not named by `--ignore-filenames`; of these it lists all that
were added or removed, and text files whose lines differ, classes and JARs in which a comparison finds a
change that is not ignored. (Missing: differing files of other kinds.) -/
theorem C177_partial (E : DistEnv) (l r : Forest) (shallow : Bool) (hl : l.Ok) (hr : r.Ok) (hc : NoClash l r)
    (hs : ∀ p b c t, FileAt l p b t → FileAt r p c t → b.length = c.length → b = c)
    (c : Change DiffOpts) (o : DiffOpts) (h : (distChange E l r shallow).check = .ok c) :
    ListsFiles shallow l r ((toJson o ⟨true, true⟩ c).kids.map Json.item) ∧
    ∃ (evs : List (Event × Str)) (ps : List (Event × List Str)) (kind : Str → DistKind) (shown : List (Event × Str)),
      Reports SameContent l r evs ps ∧ (∀ f, DistKindOf shallow f (kind f)) ∧ (shown.map Prod.snd).Nodup ∧
      (∀ p ∈ shown, p ∈ evs ∧ p.1 ≠ .same ∧ fnmatches p.2 o.filenames = false ∧ (p.1 = .diff → kind p.2 ≠ .other)) ∧
      ((toJson o ⟨false, false⟩ c).kids.map Json.item).Perm (shown.map fun p => fileItem p.1 (kind p.2) p.2) ∧
      (∀ j ∈ (toJson o ⟨false, false⟩ c).kids, j.changed = true ∧ j.muted = false) ∧
      (∀ p ∈ evs, p.1 = .left ∨ p.1 = .right → fnmatches p.2 o.filenames = false → p ∈ shown) ∧
      (∀ f ls ms, (.diff, f) ∈ evs → kind f = .text → fnmatches f o.filenames = false → TextFile l f ls → TextFile r f ms →
        ls ≠ ms → (o.attr "ignore_trailing_whitespace" = true → ¬ EqualText ls ms) → (.diff, f) ∈ shown) ∧
      (∀ f x y a b d, (.diff, f) ∈ evs → kind f = .cls → fnmatches f o.filenames = false → readEntry l f = .ok x →
        readEntry r f = .ok y → unpackClass E.lim (.bytes x) = .ok a → unpackClass E.lim (.bytes y) = .ok b →
        (javaClassChange E.T E.lim E.depth a b).check = .ok d → exitStatus o.flags d = 1 → (.diff, f) ∈ shown) ∧
      (∀ f x y a b, (.diff, f) ∈ evs → kind f = .jar → fnmatches f o.filenames = false → readEntry l f = .ok x →
        readEntry r f = .ok y → E.openJar x = .ok a → E.openJar y = .ok b →
        jarDiffStatus E.toJarEnv a b o = .ok 1 → (.diff, f) ∈ shown) := by
  obtain ⟨evs, ps, cs, h1, h2, h3, h4⟩ := dist_listing E l r shallow hl hr hc hs c h
  obtain ⟨kind, hkind⟩ : ∃ kind : Str → DistKind, ∀ n, DistKindOf shallow n (kind n) :=
    ⟨fun n => Classical.choose (distKind_unique shallow n),
      fun n => (Classical.choose_spec (distKind_unique shallow n)).1⟩
  have hitem : ∀ s, ∀ p ∈ evs, (toJson o s (distEntryChange E l r shallow p).checked).item =
      fileItem p.1 (kind p.2) p.2 := by
    intro s p hp
    obtain ⟨e1, e2, e3, _⟩ := C74_entry E l r shallow p.1 p.2 (kind p.2) (hkind p.2)
    rw [(toJson_item _ _ _).1, check_hdr _ _ (h3 p hp), e1, e2, e3, file_item (event_named hl hr h1 hp)]
  have hloud : ∀ {x : Change DiffOpts}, x.loud o = true ↔ x.isChange = true ∧ x.isIgnored o = false := by
    intro x
    simp [Change.loud]
  refine ⟨⟨evs, ps, kind, h1, hkind, ?_⟩, evs, ps, kind,
    evs.filter fun p => (distEntryChange E l r shallow p).checked.loud o, h1, hkind, ?_, ?_, ?_, ?_, ?_, ?_, ?_, ?_⟩
  · have hall : ∀ x : Change DiffOpts, Visible o ⟨true, true⟩ x = true := by
      intro x
      simp only [Visible]
      cases x.isChange <;> cases x.isIgnored o <;> rfl
    rw [h4, List.filter_eq_self.2 fun x _ => hall x, List.map_map, List.map_map]
    refine (h2.map _).trans (List.Perm.of_eq ?_)
    rw [List.map_map]
    exact List.map_congr_left fun p hp => hitem _ p hp
  · have := reports_names hl hr h1
    exact this.sublist (List.Sublist.map _ List.filter_sublist)
  · intro p hp
    obtain ⟨h6, h7⟩ := List.mem_filter.1 hp
    obtain ⟨h8, h9⟩ := hloud.1 h7
    refine ⟨h6, ?_, ?_, ?_⟩
    · intro he
      obtain ⟨ev, f⟩ := p
      simp only at he
      subst he
      rw [same_unchanged E shallow hl hr h1 h6 (h3 _ h6)] at h8
      simp at h8
    · cases hf : fnmatches p.2 o.filenames with
      | false => rfl
      | true =>
        rw [C77_name E l r shallow o p.1 p.2 _ (h3 p h6) hf] at h9
        simp at h9
    · intro hd hk
      obtain ⟨c', e1, e2⟩ := C63_other_lost E l r shallow p.1 p.2 (.inl hd) (hk ▸ hkind p.2)
      rw [h3 p h6, Except.ok.injEq] at e1
      rw [e1, e2] at h8
      simp at h8
  · have hvis : ∀ x : Change DiffOpts, Visible o ⟨false, false⟩ x = x.loud o := by
      intro x
      simp [Visible, Change.loud]
    rw [h4, show (cs.map checked).filter (Visible o ⟨false, false⟩) = (cs.map checked).filter (Change.loud o) from
      List.filter_congr fun x _ => hvis x]
    refine ((((h2.map _).filter _).map _).map _).trans (List.Perm.of_eq ?_)
    rw [List.map_map, List.filter_map, List.map_map, List.filter_map, List.map_map]
    exact List.map_congr_left fun p hp => hitem _ p (List.mem_filter.1 hp).1
  · intro j hj
    rw [h4] at hj
    obtain ⟨x, hx, rfl⟩ := List.mem_map.1 hj
    obtain ⟨_, _, e3, e4⟩ := toJson_item o ⟨false, false⟩ x
    rw [e3, e4]
    have := (List.mem_filter.1 hx).2
    simpa [Visible] using this
  · rintro ⟨ev, f⟩ hp hev hf
    obtain ⟨c', e1, e2, e3⟩ := C74_checked_one_sided E l r shallow ev f hev
    rw [h3 _ hp, Except.ok.injEq] at e1
    refine List.mem_filter.2 ⟨hp, hloud.2 ⟨e1 ▸ e2, ?_⟩⟩
    rw [e1, Bool.eq_false_iff, ne_eq, e3]
    simpa using hf
  · intro f ls ms hp hk hf hls hms hne hw
    obtain ⟨c', e1, e2, e3⟩ := C64_partial E l r shallow .diff (.inl rfl) f (hk ▸ hkind f) ls ms hls hms
    rw [h3 _ hp, Except.ok.injEq] at e1
    refine List.mem_filter.2 ⟨hp, hloud.2 ⟨e1 ▸ e2.2 hne, ?_⟩⟩
    rw [e1, Bool.eq_false_iff, ne_eq, e3]
    rintro (h8 | ⟨h8, h9⟩)
    · rw [hf] at h8; simp at h8
    · exact hw h8 h9
  · intro f x y a b d hp hk hf hx hy ha hb hd hst
    obtain ⟨c', e1, e2, e3⟩ := C63_class E l r f shallow (hk ▸ hkind f) x y a b d hx hy ha hb hd
    rw [h3 _ hp, Except.ok.injEq] at e1
    have hst' : d.isChange = true ∧ d.isIgnored o.flags = false := by
      unfold exitStatus at hst
      cases h8 : d.isChange <;> cases h9 : d.isIgnored o.flags <;> simp [h8, h9] at hst ⊢
    refine List.mem_filter.2 ⟨hp, hloud.2 ⟨e1 ▸ e2.trans hst'.1, ?_⟩⟩
    rw [e1, Bool.eq_false_iff, ne_eq, e3]
    rintro (h8 | ⟨_, h8⟩)
    · rw [hf] at h8; simp at h8
    · rw [hst'.2] at h8; simp at h8
  · intro f x y a b hp hk hf hx hy ha hb hj
    obtain ⟨c', e1, e2⟩ := (C63_jar E l r f shallow (hk ▸ hkind f) x y a b hx hy ha hb o).2 1 hj
    rw [h3 _ hp, Except.ok.injEq] at e1
    exact List.mem_filter.2 ⟨hp, hloud.2 (e1 ▸ e2.2 ⟨rfl, by rw [hf]; simp⟩)⟩

/-- Two distributions with a differing file of no special kind. -/
theorem C177_full_fails : ¬ C177_full := by
  intro h
  cases hc : (distChange demoDist (.file ['a'] [1] 0 .nil) (.file ['a'] [2, 3] 1 .nil) false).check with
  | error e =>
    have : (match (distChange demoDist (.file ['a'] [1] 0 .nil) (.file ['a'] [2, 3] 1 .nil) false).check with
      | .ok _ => true | .error _ => false) = true := by decide +kernel
    rw [hc] at this; simp at this
  | ok c =>
    obtain ⟨f, k, _, _, h1⟩ := (h demoDist (.file ['a'] [1] 0 .nil) (.file ['a'] [2, 3] 1 .nil) false c (jarOpts [] []) ⟨by simp [IsName], by decide, trivial⟩
      ⟨by simp [IsName], by decide, trivial⟩ hc).2 .diff [['a']] (by simp)
      ⟨[1], 0, [2, 3], 1, .here .., .here .., show ¬ ([1] : Bytes) = [2, 3] by decide⟩ rfl rfl
    have h2 : (match (distChange demoDist (.file ['a'] [1] 0 .nil) (.file ['a'] [2, 3] 1 .nil) false).check with
      | .ok c => (toJson (jarOpts [] []) ⟨false, false⟩ c).kids.map Json.item
      | .error _ => []) = [] := by decide +kernel
    rw [hc] at h2
    simp only at h2
    rw [h2] at h1
    simp at h1

/-- Two distributions with a changed class, a changed text, a removed JAR and another file. -/
def listedDists (s : ShowOpts) : Option (List (String × Option Str × Bool × Bool)) :=
  match (distChange demoDist
      (.file "B.class".toList (tinyClass 1).enc 0 (.file "a.txt".toList [97] 0 (.file "x.jar".toList [] 0
        (.file "b".toList [1] 0 .nil))))
      (.file "B.class".toList (tinyClass 0).enc 1 (.file "a.txt".toList [98] 1 (.file "b".toList [1] 0
        .nil))) false).check with
  | .ok c => some ((toJson (jarOpts [] []) s c).kids.map Json.item)
  | .error _ => none

example : listedDists ⟨false, false⟩ = some [("DistClassChange", some "./B.class".toList, false, false),
    ("DistJarRemoved", some "x.jar".toList, false, true), ("DistTextChange", some "./a.txt".toList, false, false)] := by
  decide +kernel

example : (listedDists ⟨true, true⟩).map List.length = some 4 := by decide +kernel

end Javatools
