import Verif.Props.DistExact
import Verif.Props.JarJson

/-! C73, C176: for exactly which JARs the status of a comparison is 1, and which entries its JSON report lists. -/

namespace Javatools

open Spec Change

/-- Different contents of an entry count: always those of a signature block or of an entry of no special kind; of a
manifest, if a section changed in an attribute that is not to be ignored; of a signature file, if the two differ as
manifests; of a class, if comparing it alone has status 1. -/
def CountsBytes (E : JarEnv) (o : DiffOpts) (x y : Bytes) : EntryKind → Prop
  | .sigblock | .other => True
  | .manifest => ∃ a b, emptyManifest.parse x = .ok a ∧ emptyManifest.parse y = .ok b ∧
      o.attr "ignore_manifest" = false ∧ ∃ t, Expected a b t ∧ LineChanged a b t ∧ ¬ LineIgnored a b o t
  | .sigfile => ∃ a b, emptyManifest.parse x = .ok a ∧ emptyManifest.parse y = .ok b ∧
      (a.main ≠ b.main ∨ ∃ s, PyDict.get? a.subs s ≠ PyDict.get? b.subs s)
  | .cls => ∃ a b, unpackClass E.lim (.bytes x) = .ok a ∧ unpackClass E.lim (.bytes y) = .ok b ∧
      classDiffStatus E.T E.lim E.depth o.flags a b = .ok 1

/-- An entry counts: one JAR only has it; or it is not a directory and its contents differ in a way that counts. -/
def CountsEntry (E : JarEnv) (l r : Archive) (o : DiffOpts) (f : Str) (k : EntryKind) : Prop :=
  ¬ (f ∈ names l ↔ f ∈ names r) ∨
    ¬ IsDirName f ∧ ∃ x y, HasContent l f x ∧ HasContent r f y ∧ x ≠ y ∧ CountsBytes E o x y k

theorem readBoth_inv {α : Type} {g : Payload → Res α} {l r : Archive} {f : Str} {p : α × α} {x y : Payload}
    (h : readBoth g l r f = .ok p) (hx : l.openRead f = .ok x) (hy : r.openRead f = .ok y) :
    g x = .ok p.1 ∧ g y = .ok p.2 := by
  unfold readBoth at h
  rw [hx, hy] at h
  simp only at h
  split at h
  · cases h
  split at h
  · cases h
  cases h
  exact ⟨‹_›, ‹_›⟩

/-- A checked entry with different contents is a change that is not ignored exactly if no option covers it and the
contents count. -/
theorem bytes_counts (E : JarEnv) (hup : IsUpper E.up) (ho : IsSetOrder E.order) (l r : Archive) (o : DiffOpts)
    (f : Str) (k : EntryKind) (hk : KindOf E.up f k) (x y : Bytes) (hx : l.openRead f = .ok (.bytes x))
    (hy : r.openRead f = .ok (.bytes y)) (hxy : x ≠ y) (c : Change DiffOpts)
    (hc : (jarEntryChange E l r (.diff, f)).check = .ok c) :
    (c.isChange = true ∧ c.isIgnored o = false) ↔ ¬ EntryCovered o f k ∧ CountsBytes E o x y k := by
  have hraw : (k = .other ∨ k = .sigblock) →
      ((c.isChange = true ∧ c.isIgnored o = false) ↔ ¬ EntryCovered o f k ∧ True) := by
    intro hr
    obtain ⟨c', h1, h2, h3⟩ := C67_checked_raw E hup l r f k hk hr _ _ hx hy
    rw [hc, Except.ok.injEq] at h1
    subst h1
    rw [Bool.eq_false_iff, ne_eq, h3, h2]
    rcases hr with rfl | rfl <;> simp [EntryCovered, hxy]
  cases k with
  | other => exact hraw (.inl rfl)
  | sigblock => exact hraw (.inr rfl)
  | cls =>
    have hc' := hc
    rw [jarEntryChange_eq E hup l r .diff f _ hk] at hc'
    obtain ⟨⟨a, b⟩, hab, hcc⟩ := raised_inv hc'
    obtain ⟨ha, hb⟩ := readBoth_inv hab hx hy
    obtain ⟨d0, hd0⟩ := only_inv hcc
    rw [Change.comap_check] at hd0
    cases hd : (javaClassChange E.T E.lim E.depth a b).check with
    | error e => rw [hd] at hd0; cases hd0
    | ok d =>
    obtain ⟨c', h1, h2, h3⟩ := C67_checked_class E hup l r f hk _ _ a b d hx hy ha hb hd
    rw [hc, Except.ok.injEq] at h1
    subst h1
    have hst : classDiffStatus E.T E.lim E.depth o.flags a b = .ok 1 ↔
        d.isChange = true ∧ d.isIgnored o.flags = false := by
      unfold classDiffStatus
      rw [hd]
      show Except.ok _ = Except.ok _ ↔ _
      rw [Except.ok.injEq]
      exact exit_one_iff o.flags d
    rw [Bool.eq_false_iff, ne_eq, h3 o, h2]
    constructor
    · rintro ⟨e1, e2⟩
      rw [not_or, not_and] at e2
      exact ⟨e2.1, a, b, ha, hb, hst.2 ⟨e1, by simpa using e2.2 e1⟩⟩
    · rintro ⟨e1, a', b', ha', hb', e2⟩
      change unpackClass E.lim (.bytes x) = .ok a at ha
      change unpackClass E.lim (.bytes y) = .ok b at hb
      rw [ha, Except.ok.injEq] at ha'
      rw [hb, Except.ok.injEq] at hb'
      subst ha' hb'
      obtain ⟨e3, e4⟩ := hst.1 e2
      refine ⟨e3, ?_⟩
      rintro (h | ⟨_, h⟩)
      · exact e1 h
      · rw [e4] at h; cases h
  | sigfile =>
    have hc' := hc
    rw [jarEntryChange_eq E hup l r .diff f _ hk] at hc'
    obtain ⟨⟨a, b⟩, hab, hcc⟩ := raised_inv hc'
    obtain ⟨ha, hb⟩ := readBoth_inv hab hx hy
    obtain ⟨c', h1, h2⟩ := C67_checked_manifest E hup ho l r f _ hk (.inr rfl) x y a b hx hy ha hb
    rw [hc, Except.ok.injEq] at h1
    subst h1
    have hi : c.isIgnored o = true ↔ EntryCovered o f .sigfile := by
      obtain ⟨b', d', cs', rfl⟩ := check_super hcc
      simp only [Change.isIgnored]
      exact Iff.rfl
    rw [Bool.eq_false_iff, ne_eq, hi, h2]
    constructor
    · rintro ⟨e1, e2⟩
      exact ⟨e2, a, b, ha, hb, e1⟩
    · rintro ⟨e1, a', b', ha', hb', e2⟩
      change emptyManifest.parse x = .ok a at ha
      change emptyManifest.parse y = .ok b at hb
      rw [ha, Except.ok.injEq] at ha'
      rw [hb, Except.ok.injEq] at hb'
      subst ha' hb'
      exact ⟨e2, e1⟩
  | manifest =>
    have hc' := hc
    rw [jarEntryChange_eq E hup l r .diff f _ hk] at hc'
    obtain ⟨⟨a, b⟩, hab, hcc⟩ := raised_inv hc'
    obtain ⟨ha, hb⟩ := readBoth_inv hab hx hy
    change emptyManifest.parse x = .ok a at ha
    change emptyManifest.parse y = .ok b at hb
    obtain ⟨d, hd⟩ := only_inv hcc
    rw [check_single _ _ _ _ _ hd, Except.ok.injEq] at hcc
    have hch' : c.isChange = d.isChange := by rw [← hcc]; rfl
    have hci : c.isIgnored o = (fnmatches f o.jarEntries || (d.isChange && d.isIgnored o)) := by
      rw [← hcc]
      exact single_isIgnored _ (entryIgnored f) rfl rfl d o
    have hig := C68_ignored E.order E.text a b ho (C68_parsed _ _ ha).1 (C68_parsed _ _ hb).1 d hd o
    obtain ⟨d', hd', -, hch, -⟩ := C68_report E.order E.text a b ho (C68_parsed _ _ ha).1 (C68_parsed _ _ hb).1
    rw [hd, Except.ok.injEq] at hd'
    subst hd'
    have hdch : (∃ t, Expected a b t ∧ LineChanged a b t) → d.isChange = true := by
      rintro ⟨t, h4, h5⟩
      rw [hch]
      cases t with
      | main => exact .inl h5
      | shared s u v => exact .inr ⟨s, by rw [h4.1, h4.2]; exact fun e => h5 (Option.some.inj e)⟩
      | removed s u => exact .inr ⟨s, by rw [h4.1, h4.2]; simp⟩
      | added s u => exact .inr ⟨s, by rw [h4.1, h4.2]; simp⟩
    rw [hch', Bool.eq_false_iff, ne_eq, hci, Bool.or_eq_true, Bool.and_eq_true]
    constructor
    · rintro ⟨e1, e2⟩
      rw [not_or, not_and] at e2
      have e3 := e2.2 e1
      rw [hig, not_or, not_and] at e3
      have e4 := e3.2 e1
      refine ⟨e2.1, a, b, ha, hb, by simpa using e3.1, ?_⟩
      refine Classical.byContradiction fun hn => e4 fun t h1 h2 => Classical.byContradiction fun h3 => ?_
      exact hn ⟨t, h1, h2, h3⟩
    · rintro ⟨e1, a', b', ha', hb', e2, t, e3, e4, e5⟩
      rw [ha, Except.ok.injEq] at ha'
      rw [hb, Except.ok.injEq] at hb'
      subst ha' hb'
      refine ⟨hdch ⟨t, e3, e4⟩, ?_⟩
      rw [hig, e2]
      rintro (h | ⟨_, h | ⟨_, h⟩⟩)
      · exact e1 h
      · cases h
      · exact e5 (h t e3 e4)

/-- A checked entry is a change that is not ignored exactly if no option covers it and it counts. -/
theorem entry_counts (E : JarEnv) (hup : IsUpper E.up) (ho : IsSetOrder E.order) (l r : Archive)
    (hlr : ReadableJars l r) (o : DiffOpts) (evs : List (Event × Str)) (hp : Partition l r evs) (ev : Event) (f : Str)
    (hm : (ev, f) ∈ evs) (k : EntryKind) (hk : KindOf E.up f k) (c : Change DiffOpts)
    (hc : (jarEntryChange E l r (ev, f)).check = .ok c) :
    (c.isChange = true ∧ c.isIgnored o = false) ↔ ¬ EntryCovered o f k ∧ CountsEntry E l r o f k := by
  have hone : ev = .left ∨ ev = .right → ¬ (f ∈ names l ↔ f ∈ names r) →
      ((c.isChange = true ∧ c.isIgnored o = false) ↔ ¬ EntryCovered o f k ∧ CountsEntry E l r o f k) := by
    intro hev hn
    have hnd : ev ≠ .diff := by rcases hev with rfl | rfl <;> simp
    obtain ⟨c', h1, h2, -⟩ := C67_checked_simple E hup l r ev f hnd
    rw [hc, Except.ok.injEq] at h1
    subst h1
    constructor
    · rintro ⟨-, e2⟩
      refine ⟨fun h => ?_, .inl hn⟩
      rw [covered_ignored E hup l r ev f k hk o h c hc] at e2
      cases e2
    · rintro ⟨e1, -⟩
      exact ⟨h2.2 (by rcases hev with rfl | rfl <;> simp), uncovered E hup l r ev f k hk o e1 hnd c hc⟩
  cases ev with
  | left => obtain ⟨h1, h2⟩ := (hp.left f).1 hm; exact hone (.inl rfl) (by simp [h1, h2])
  | right => obtain ⟨h1, h2⟩ := (hp.right f).1 hm; exact hone (.inr rfl) (by simp [h1, h2])
  | same =>
    obtain ⟨hd, b, h1, h2⟩ := (hp.same f).1 hm
    obtain ⟨c', h3, h4, -⟩ := C67_checked_simple E hup l r .same f (by simp)
    rw [hc, Except.ok.injEq] at h3
    subst h3
    constructor
    · rintro ⟨e1, -⟩; exact absurd rfl (h4.1 e1)
    · rintro ⟨-, e | ⟨-, x, y, hx, hy, hxy, -⟩⟩
      · exact absurd (by simp [hasContent_name h1, hasContent_name h2]) e
      · have u1 := openRead_zip hlr.leftOpen hlr.leftConsistent hlr.leftZip hd h1
        have u2 := openRead_zip hlr.rightOpen hlr.rightConsistent hlr.rightZip hd h2
        rw [openRead_zip hlr.leftOpen hlr.leftConsistent hlr.leftZip hd hx] at u1
        rw [openRead_zip hlr.rightOpen hlr.rightConsistent hlr.rightZip hd hy] at u2
        cases u1; cases u2
        exact absurd rfl hxy
  | diff =>
    obtain ⟨hd, x, y, h1, h2, hxy⟩ := (hp.diff f).1 hm
    have u1 := openRead_zip hlr.leftOpen hlr.leftConsistent hlr.leftZip hd h1
    have u2 := openRead_zip hlr.rightOpen hlr.rightConsistent hlr.rightZip hd h2
    rw [bytes_counts E hup ho l r o f k hk x y u1 u2 hxy c hc]
    refine and_congr_right fun _ => ⟨fun h => .inr ⟨hd, x, y, h1, h2, hxy, h⟩, ?_⟩
    rintro (e | ⟨-, x', y', hx, hy, -, e⟩)
    · exact absurd (by simp [hasContent_name h1, hasContent_name h2]) e
    · rw [openRead_zip hlr.leftOpen hlr.leftConsistent hlr.leftZip hd hx] at u1
      rw [openRead_zip hlr.rightOpen hlr.rightConsistent hlr.rightZip hd hy] at u2
      cases u1; cases u2
      exact e

/-- C73, exactly: when the comparison ends, the status is 1 if an entry counts that no option covers, and otherwise
0. -/
theorem C73_exact (E : JarEnv) (hup : IsUpper E.up) (ho : IsSetOrder E.order) (l r : Archive)
    (hlr : ReadableJars l r) (o : DiffOpts) (st : Nat) (h : jarDiffStatus E l r o = .ok st) :
    (st = 0 ∨ st = 1) ∧
    (st = 1 ↔ ∃ f k, KindOf E.up f k ∧ ¬ EntryCovered o f k ∧ CountsEntry E l r o f k) := by
  obtain ⟨evs, _, h1, h2, _⟩ := C55_partial E.order l r ho hlr.leftOpen hlr.rightOpen
    hlr.leftConsistent hlr.rightConsistent hlr.leftZip hlr.rightZip hlr.named
  obtain ⟨h4, h5, h6⟩ := C73_status E l r o st evs (by rw [hlr.leftZip, hlr.rightZip]) h1 h
  refine ⟨h5, h6.trans ?_⟩
  constructor
  · rintro ⟨⟨ev, f⟩, hp, c, hc, h7⟩
    obtain ⟨k, hk, _⟩ := kindOf_unique E.up f
    exact ⟨f, k, hk, (entry_counts E hup ho l r hlr o evs h2 ev f hp k hk c hc).1 h7⟩
  · rintro ⟨f, k, hk, h7⟩
    have hev : ∃ ev, (ev, f) ∈ evs := by
      rcases h7.2 with e | ⟨hd, x, y, hx, hy, hxy, -⟩
      · by_cases hl : f ∈ names l
        · exact ⟨.left, (h2.left f).2 ⟨hl, fun hr => e ⟨fun _ => hr, fun _ => hl⟩⟩⟩
        · exact ⟨.right, (h2.right f).2 ⟨hl, Classical.byContradiction fun hr =>
            e ⟨fun h => absurd h hl, fun h => absurd h hr⟩⟩⟩
      · exact ⟨.diff, (h2.diff f).2 ⟨hd, x, y, hx, hy, hxy⟩⟩
    obtain ⟨ev, hev⟩ := hev
    obtain ⟨c, hc⟩ := h4 _ hev
    exact ⟨(ev, f), hev, c, hc, (entry_counts E hup ho l r hlr o evs h2 ev f hev k hk c hc).2 h7⟩

/-- C176, exactly what is listed: without the options, the entries that no option covers and that count, each once. -/
theorem C176_exact (E : JarEnv) (hup : IsUpper E.up) (ho : IsSetOrder E.order) (l r : Archive)
    (hlr : ReadableJars l r) (c : Change DiffOpts) (h : (jarChange E l r).check = .ok c) (o : DiffOpts) :
    ∃ (evs : List (Event × Str)) (kind : Str → EntryKind) (shown : List (Event × Str)),
      Partition l r evs ∧ (∀ f, KindOf E.up f (kind f)) ∧ shown.Nodup ∧
      ((jarListing (toJson o ⟨false, false⟩ c)).map Json.item).Perm (shown.map fun p => entryItem p.1 (kind p.2) p.2) ∧
      ∀ ev f, (ev, f) ∈ shown ↔ (ev, f) ∈ evs ∧ ¬ EntryCovered o f (kind f) ∧ CountsEntry E l r o f (kind f) := by
  obtain ⟨evs, shown, h1, h2, h3, h4, h5⟩ := jar_shown E ho l r hlr c h o
  obtain ⟨kind, hkind⟩ : ∃ kind : Str → EntryKind, ∀ n, KindOf E.up n (kind n) :=
    ⟨fun n => Classical.choose (kindOf_unique E.up n), fun n => (Classical.choose_spec (kindOf_unique E.up n)).1⟩
  refine ⟨evs, kind, shown, h1, hkind, h2, ?_, ?_⟩
  · refine (h5.map _).trans (List.Perm.of_eq ?_)
    rw [List.map_map]
    refine List.map_congr_left fun p hp => ?_
    obtain ⟨e1, e2, e3, _⟩ := C67_entry E hup l r p.1 p.2 (kind p.2) (hkind p.2)
    simp only [Function.comp]
    rw [(toJson_item _ _ _).1, check_hdr _ _ (h3 p ((h4 p).1 hp).1), e1, e2, e3, kind_item]
  · intro ev f
    rw [h4]
    refine and_congr_right fun hp => ?_
    rw [← entry_counts E hup ho l r hlr o evs h1 ev f hp (kind f) (hkind f) _ (h3 _ hp)]
    simp [Change.loud]

/-- A manifest with another value counts, unless manifests are to be ignored or a pattern matches the entry. -/
example :
    jarDiffStatus demoEnv (manifestJar 66) (manifestJar 67) (jarOpts [] []) = .ok 1 ∧
    jarDiffStatus demoEnv (manifestJar 66) (manifestJar 67) (jarOpts [("ignore_manifest".toList, true)] []) = .ok 0 ∧
    jarDiffStatus demoEnv (manifestJar 66) (manifestJar 67) (jarOpts [] ["*.MF".toList]) = .ok 0 := by decide +kernel

example : ∃ f k, KindOf demoEnv.up f k ∧ ¬ EntryCovered (jarOpts [] []) f k ∧
    CountsEntry demoEnv (manifestJar 66) (manifestJar 67) (jarOpts [] []) f k :=
  (C73_exact demoEnv upLongS_isUpper dedup_isSetOrder _ _ (manifestJars_readable 66 67) _ 1 (by decide +kernel)).2.1 rfl

example : ¬ ∃ f k, KindOf demoEnv.up f k ∧ ¬ EntryCovered (jarOpts [("ignore_manifest".toList, true)] []) f k ∧
    CountsEntry demoEnv (manifestJar 66) (manifestJar 67) (jarOpts [("ignore_manifest".toList, true)] []) f k :=
  fun h => absurd ((C73_exact demoEnv upLongS_isUpper dedup_isSetOrder _ _ (manifestJars_readable 66 67) _ 0
    (by decide +kernel)).2.2 h) (by decide)

/-- The one entry is listed, unless manifests are to be ignored. -/
example :
    (match (jarChange demoEnv (manifestJar 66) (manifestJar 67)).check with
    | .ok c => some ((jarListing (toJson (jarOpts [] []) ⟨false, false⟩ c)).length,
        (jarListing (toJson (jarOpts [("ignore_manifest".toList, true)] []) ⟨false, false⟩ c)).length)
    | .error _ => none) = some (1, 0) := by decide +kernel

end Javatools
