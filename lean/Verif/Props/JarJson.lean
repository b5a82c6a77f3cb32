import Verif.Props.JarLoud
/-
C176: the JSON report of a JAR comparison has one object for every entry.
-/
namespace Javatools

/-! ### Reading a JSON report -/

/-- The class of the change. -/
def Change.Json.cls : Change.Json → String
  | .obj cls .. => cls

/-- The objects under "children". -/
def Change.Json.kids : Change.Json → List Change.Json
  | .obj _ _ _ _ _ _ _ _ children => children.getD []

/-- What an object says of an entry: class, name, whether it was added, removed. -/
def Change.Json.item : Change.Json → String × Option Str × Bool × Bool
  | .obj cls _ _ _ _ add rem entry _ => (cls, entry, add, rem)

/-- "is_change" -/
def Change.Json.changed : Change.Json → Bool
  | .obj _ b .. => b

/-- "is_ignored" -/
def Change.Json.muted : Change.Json → Bool
  | .obj _ _ _ _ b .. => b

/-- The entries that the report on two JARs lists. -/
def jarListing (j : Change.Json) : List Change.Json :=
  (j.kids.filter fun k => k.cls = "JarContentsChange").flatMap Change.Json.kids

/-- What a listing should say of an entry, for the event and the kind of the entry. A name that is
empty is not given. -/
def entryItem (ev : Event) (k : EntryKind) (f : Str) : String × Option Str × Bool × Bool :=
  (entryClass ev k, if f = [] then none else some f, decide (ev = .right), decide (ev = .left))

/-! ### The report of a tree -/

open Change

theorem toJsonKept_eq {O : Type} (o : O) (s : ShowOpts) (cs : List (Change O)) :
    toJsonKept o s cs = (cs.filter (Visible o s)).map (toJson o s) := by
  induction cs with
  | nil => rfl
  | cons c cs ih =>
    rw [kept_eq, List.filter_cons, ih]
    split <;> simp

theorem toJson_item {O : Type} (o : O) (s : ShowOpts) (c : Change O) :
    (toJson o s c).item = (c.hdr.typeName, Change.entryShown c.hdr.entry, c.hdr.kind == .addition, c.hdr.kind == .removal) ∧
    (toJson o s c).cls = c.hdr.typeName ∧ (toJson o s c).changed = c.isChange ∧
    (toJson o s c).muted = c.isIgnored o := by
  cases c <;> simp [toJson, Json.item, Json.cls, Json.changed, Json.muted, hdr]

theorem checkAll_map {O α : Type} (g : Change O → α) (hg : ∀ c c', check c = .ok c' → g c' = g c)
    (cs : List (Change O)) (b : Bool) (cs' : List (Change O)) (b' : Bool)
    (h : checkAll cs b = .ok (cs', b')) : cs'.map g = cs.map g := by
  induction cs generalizing b cs' b' with
  | nil => simp only [checkAll, Except.ok.injEq, Prod.mk.injEq] at h; rw [← h.1]
  | cons c cs ih =>
    rw [checkAll] at h
    split at h
    · simp at h
    · rename_i c' hc
      split at h
      · simp at h
      · rename_i cs'' b'' hcs
        simp only [Except.ok.injEq, Prod.mk.injEq] at h
        rw [← h.1, List.map_cons, List.map_cons, hg _ _ hc, ih _ _ _ hcs]

theorem kind_item (ev : Event) (k : EntryKind) (f : Str) :
    (entryClass ev k, Change.entryShown (some f), eventKind ev == .addition, eventKind ev == .removal) = entryItem ev k f := by
  have : Change.entryShown (some f) = if f = [] then none else some f := by
    cases f <;> rfl
  rw [entryItem, this]
  cases ev <;> rfl

/-- The checked contents. -/
def contentsOf (b : Bool) (cs : List (Change DiffOpts)) : Change DiffOpts :=
  .super { typeName := "JarContentsChange", label := "JAR Contents".toList } none b none cs

/-- What the report lists, before the options are looked at. -/
theorem jar_listing (E : JarEnv) (ho : IsSetOrder E.order) (l r : Archive)
    (hlr : ReadableJars l r) (c : Change DiffOpts) (h : (jarChange E l r).check = .ok c) :
    ∃ (evs : List (Event × Str)) (cs cs' : List (Change DiffOpts)) (b : Bool), Partition l r evs ∧
      compareZips E.order l r = (evs, none) ∧
      cs.Perm (evs.map (jarEntryChange E l r)) ∧ checkAll cs false = .ok (cs', b) ∧
      (b = true ↔ ∃ x ∈ cs', x.isChange = true) ∧
      ∀ o s, jarListing (toJson o s c) = if Visible o s (contentsOf b cs') then (cs'.filter (Visible o s)).map (toJson o s) else [] := by
  obtain ⟨evs, _, h1, h2, _⟩ := C55_partial E.order l r ho hlr.leftOpen hlr.rightOpen
    hlr.leftConsistent hlr.rightConsistent hlr.leftZip hlr.rightZip hlr.named
  obtain ⟨cs, h3, _, h4, _⟩ := C67_collected E l r evs h1
  rw [jarChange, check] at h
  split at h
  · simp at h
  · rename_i kids b0 hk
    simp only [Except.ok.injEq] at h
    subst h
    simp only [checkAll] at hk
    split at hk
    · simp at hk
    · rename_i t ht
      split at hk
      · simp at hk
      · rename_i rest b1 hrest
        split at hrest
        · simp at hrest
        · rename_i x hx
          simp only [Except.ok.injEq, Prod.mk.injEq] at hrest hk
          obtain ⟨rfl, _⟩ := hrest
          obtain ⟨rfl, _⟩ := hk
          rw [jarContentsChange, h3, orRaise, check] at hx
          split at hx
          · simp at hx
          · rename_i cs' b hcs
            simp only [Except.ok.injEq] at hx
            subst hx
            refine ⟨evs, cs, cs', b, h2, h1, h4, hcs, ?_, ?_⟩
            · have := (checkAll_ok _ _ _ _ hcs).2.2.1
              simpa using this
            · intro o s
              have hty : t.hdr.typeName = "JarTypeChange" := by
                rw [check_hdr _ _ ht]; rfl
              simp only [jarListing, toJson, Json.kids, Option.getD_some, toJsonKept_eq, List.filter_cons, List.filter_nil]
              rw [← contentsOf]
              generalize hv : Visible o s (contentsOf b cs') = v
              have hc : ∀ (k : Json), k.cls = "JarTypeChange" → decide (k.cls = "JarContentsChange") = false := by
                intro k hk; rw [hk]; rfl
              have hk1 := hc (toJson o s t) ((toJson_item o s t).2.1.trans hty)
              have hk2 : decide ((toJson o s (contentsOf b cs')).cls = "JarContentsChange") = true := by
                rw [(toJson_item o s _).2.1]; rfl
              have hk3 : (toJson o s (contentsOf b cs')).kids = (cs'.filter (Visible o s)).map (toJson o s) := by
                simp only [contentsOf, toJson, Json.kids, Option.getD_some, toJsonKept_eq]
              cases v <;> by_cases ht : Visible o s t <;>
                simp only [ht, if_true, Bool.false_eq_true, if_false, List.map_cons, List.map_nil, List.filter_cons,
                  List.filter_nil, hk1, hk2, List.flatMap_cons, List.flatMap_nil, List.append_nil, hk3]

/-- C176: with `--show-ignored` and `--show-unchanged` the JSON report on two JARs has exactly one object for
every entry of either, of the class that what happened to the entry and its kind call for. -/
theorem C176_all (E : JarEnv) (hup : IsUpper E.up) (ho : IsSetOrder E.order) (l r : Archive)
    (hlr : ReadableJars l r) (c : Change DiffOpts) (h : (jarChange E l r).check = .ok c) (o : DiffOpts) :
    ∃ (evs : List (Event × Str)) (kind : Str → EntryKind), Partition l r evs ∧ (∀ f, KindOf E.up f (kind f)) ∧
      ((jarListing (toJson o ⟨true, true⟩ c)).map Json.item).Perm
        (evs.map fun p => entryItem p.1 (kind p.2) p.2) := by
  obtain ⟨evs, cs, cs', b, h1, _, h2, h3, _, h4⟩ := jar_listing E ho l r hlr c h
  obtain ⟨kind, hkind⟩ : ∃ kind : Str → EntryKind, ∀ n, KindOf E.up n (kind n) :=
    ⟨fun n => Classical.choose (kindOf_unique E.up n), fun n => (Classical.choose_spec (kindOf_unique E.up n)).1⟩
  refine ⟨evs, kind, h1, hkind, ?_⟩
  have hall : ∀ x : Change DiffOpts, Visible o ⟨true, true⟩ x = true := by
    intro x
    simp only [Visible]
    cases x.isChange <;> cases x.isIgnored o <;> rfl
  rw [h4, if_pos (hall _), List.filter_eq_self.2 fun x _ => hall x, List.map_map]
  have hg := checkAll_map (fun c : Change DiffOpts => (c.hdr.typeName, Change.entryShown c.hdr.entry, c.hdr.kind == .addition,
    c.hdr.kind == .removal)) (fun c c' hc => by rw [check_hdr _ _ hc]) _ _ _ _ h3
  refine (List.Perm.of_eq (?_ : _ = cs'.map fun c => (c.hdr.typeName, Change.entryShown c.hdr.entry, c.hdr.kind == .addition,
    c.hdr.kind == .removal))).trans ?_
  · exact List.map_congr_left fun x _ => (toJson_item o _ x).1
  · rw [hg]
    refine (h2.map _).trans (List.Perm.of_eq ?_)
    rw [List.map_map]
    refine List.map_congr_left fun p _ => ?_
    obtain ⟨e1, e2, e3, _⟩ := C67_entry E hup l r p.1 p.2 (kind p.2) (hkind p.2)
    simp only [Function.comp]
    rw [e1, e2, e3, kind_item]

/-- The object after its check. -/
noncomputable def Change.checked {O : Type} (c : Change O) : Change O :=
  match c.check with
  | .ok c' => c'
  | .error _ => c

theorem checkAll_checked {O : Type} (cs : List (Change O)) (b : Bool) (cs' : List (Change O)) (b' : Bool)
    (h : checkAll cs b = .ok (cs', b')) : cs' = cs.map checked ∧ ∀ c ∈ cs, c.check = .ok c.checked := by
  induction cs generalizing b cs' b' with
  | nil => simp only [checkAll, Except.ok.injEq, Prod.mk.injEq] at h; simp [← h.1]
  | cons c cs ih =>
    rw [checkAll] at h
    split at h
    · simp at h
    · rename_i c' hc
      split at h
      · simp at h
      · rename_i cs'' b'' hcs
        simp only [Except.ok.injEq, Prod.mk.injEq] at h
        obtain ⟨h1, h2⟩ := ih _ _ _ hcs
        have hx : c.checked = c' := by simp only [checked, hc]
        refine ⟨by rw [← h.1, List.map_cons, hx, h1], ?_⟩
        intro x hx'
        rcases List.mem_cons.1 hx' with rfl | hx'
        · rw [hx, hc]
        · exact h2 x hx'

/-- The events whose objects the report shows by default. -/
theorem jar_shown (E : JarEnv) (ho : IsSetOrder E.order) (l r : Archive)
    (hlr : ReadableJars l r) (c : Change DiffOpts) (h : (jarChange E l r).check = .ok c) (o : DiffOpts) :
    ∃ (evs shown : List (Event × Str)), Partition l r evs ∧ shown.Nodup ∧
      (∀ p ∈ evs, (jarEntryChange E l r p).check = .ok (jarEntryChange E l r p).checked) ∧
      (∀ p, p ∈ shown ↔ p ∈ evs ∧ (jarEntryChange E l r p).checked.loud o = true) ∧
      (jarListing (toJson o ⟨false, false⟩ c)).Perm
        (shown.map fun p => toJson o ⟨false, false⟩ (jarEntryChange E l r p).checked) := by
  obtain ⟨evs, cs, cs', b, h1, _, h2, h3, h4, h5⟩ := jar_listing E ho l r hlr c h
  obtain ⟨rfl, h6⟩ := checkAll_checked _ _ _ _ h3
  have hvis : ∀ x : Change DiffOpts, Visible o ⟨false, false⟩ x = x.loud o := by
    intro x
    simp [Visible, Change.loud]
  refine ⟨evs, evs.filter fun p => (jarEntryChange E l r p).checked.loud o, h1, ?_, ?_, ?_, ?_⟩
  · have := h1.once
    rw [List.Nodup, List.pairwise_map] at this
    exact (List.Pairwise.imp (fun hne e => hne (by rw [e])) this).filter _
  · exact fun p hp => h6 _ (h2.mem_iff.2 (List.mem_map_of_mem hp))
  · intro p; simp [List.mem_filter]
  · rw [h5]
    have hc : Visible o ⟨false, false⟩ (contentsOf b (cs.map checked)) = (cs.map checked).any (Change.loud o) := by
      rw [hvis]
      exact loud_composite rfl rfl h4 o
    have hf : (if Visible o ⟨false, false⟩ (contentsOf b (cs.map checked)) = true then
          ((cs.map checked).filter (Visible o ⟨false, false⟩)).map (toJson o ⟨false, false⟩) else []) =
        ((cs.map checked).filter (Change.loud o)).map (toJson o ⟨false, false⟩) := by
      rw [hc]
      have e : (cs.map checked).filter (Visible o ⟨false, false⟩) = (cs.map checked).filter (Change.loud o) :=
        List.filter_congr fun x _ => hvis x
      rw [e]
      split
      · rfl
      · rename_i hn
        symm
        rw [List.map_eq_nil_iff, List.filter_eq_nil_iff]
        intro x hx hl
        exact hn (List.any_eq_true.2 ⟨x, hx, hl⟩)
    rw [hf]
    refine (((h2.map _).filter _).map _).trans (List.Perm.of_eq ?_)
    rw [List.map_map, List.filter_map, List.map_map]
    rfl

/-- C176: otherwise it lists no entry twice; those that are listed were added, removed or differ, and are not
covered by an option; and of these all are listed that were added or removed, or are signature blocks or of no
special kind, and the classes in which the class comparison finds a change that is not ignored. -/
theorem C176_differing (E : JarEnv) (hup : IsUpper E.up) (ho : IsSetOrder E.order) (l r : Archive)
    (hlr : ReadableJars l r) (c : Change DiffOpts) (h : (jarChange E l r).check = .ok c) (o : DiffOpts) :
    ∃ (evs : List (Event × Str)) (kind : Str → EntryKind), Partition l r evs ∧ (∀ f, KindOf E.up f (kind f)) ∧
      ∃ shown : List (Event × Str), shown.Nodup ∧
      (∀ p ∈ shown, p ∈ evs ∧ p.1 ≠ .same ∧ ¬ EntryCovered o p.2 (kind p.2)) ∧
      ((jarListing (toJson o ⟨false, false⟩ c)).map Json.item).Perm
        (shown.map fun p => entryItem p.1 (kind p.2) p.2) ∧
      (∀ j ∈ jarListing (toJson o ⟨false, false⟩ c), j.changed = true ∧ j.muted = false) ∧
      (∀ p ∈ evs, p.1 ≠ .same → ¬ EntryCovered o p.2 (kind p.2) →
        (p.1 = .diff → kind p.2 = .other ∨ kind p.2 = .sigblock) → p ∈ shown) ∧
      (∀ f x y a b d, (.diff, f) ∈ evs → kind f = .cls → ¬ EntryCovered o f .cls → HasContent l f x →
        HasContent r f y → unpackClass E.lim (.bytes x) = .ok a → unpackClass E.lim (.bytes y) = .ok b →
        (javaClassChange E.T E.lim E.depth a b).check = .ok d → exitStatus o.flags d = 1 → (.diff, f) ∈ shown) := by
  obtain ⟨evs, shown, h1, h2, h3, h4, h5⟩ := jar_shown E ho l r hlr c h o
  obtain ⟨kind, hkind⟩ : ∃ kind : Str → EntryKind, ∀ n, KindOf E.up n (kind n) :=
    ⟨fun n => Classical.choose (kindOf_unique E.up n), fun n => (Classical.choose_spec (kindOf_unique E.up n)).1⟩
  have hloud : ∀ {x : Change DiffOpts}, x.loud o = true ↔ x.isChange = true ∧ x.isIgnored o = false := by
    intro x; simp [Change.loud]
  refine ⟨evs, kind, h1, hkind, shown, h2, ?_, ?_, ?_, ?_, ?_⟩
  · intro p hp
    obtain ⟨h6, h7⟩ := (h4 p).1 hp
    obtain ⟨h8, h9⟩ := hloud.1 h7
    refine ⟨h6, ?_, fun hc => ?_⟩
    · intro hs
      obtain ⟨c', e1, e2, _⟩ := C67_checked_simple E hup l r p.1 p.2 (by simp [hs])
      rw [h3 p h6, Except.ok.injEq] at e1
      subst e1
      exact e2.1 h8 hs
    · rw [covered_ignored E hup l r p.1 p.2 (kind p.2) (hkind _) o hc _ (h3 p h6)] at h9
      simp at h9
  · refine (h5.map _).trans (List.Perm.of_eq ?_)
    rw [List.map_map]
    refine List.map_congr_left fun p hp => ?_
    obtain ⟨e1, e2, e3, _⟩ := C67_entry E hup l r p.1 p.2 (kind p.2) (hkind p.2)
    simp only [Function.comp]
    rw [(toJson_item _ _ _).1, check_hdr _ _ (h3 p ((h4 p).1 hp).1), e1, e2, e3, kind_item]
  · intro j hj
    obtain ⟨p, hp, rfl⟩ := List.mem_map.1 (h5.mem_iff.1 hj)
    obtain ⟨_, _, e3, e4⟩ := toJson_item o ⟨false, false⟩ (jarEntryChange E l r p).checked
    rw [e3, e4]
    exact hloud.1 ((h4 p).1 hp).2
  · rintro ⟨ev, f⟩ hp hs hc hd
    refine (h4 _).2 ⟨hp, hloud.2 ?_⟩
    by_cases hev : ev = .diff
    · subst hev
      obtain ⟨hdir, x, y, hx, hy, hxy⟩ := (h1.diff f).1 hp
      obtain ⟨c', e1, e2, e3⟩ := C67_checked_raw E hup l r f (kind f) (hkind f) (hd rfl) (.bytes x) (.bytes y)
        (openRead_zip hlr.leftOpen hlr.leftConsistent hlr.leftZip hdir hx)
        (openRead_zip hlr.rightOpen hlr.rightConsistent hlr.rightZip hdir hy)
      rw [h3 _ hp, Except.ok.injEq] at e1
      subst e1
      refine ⟨e2.2 (by simpa using hxy), ?_⟩
      rw [Bool.eq_false_iff, ne_eq, e3]
      simp only at hc
      rcases hd rfl with hk | hk <;> rw [hk] at hc ⊢
      · rw [if_pos rfl]; exact hc
      · rw [if_neg (by simp)]; exact hc
    · obtain ⟨c', e1, e2, _⟩ := C67_checked_simple E hup l r ev f hev
      have e3 := e1
      rw [h3 _ hp, Except.ok.injEq] at e1
      subst e1
      exact ⟨e2.2 hs, uncovered E hup l r ev f (kind f) (hkind f) o hc hev _ e3⟩
  · intro f x y a b d hp hk hc hx hy ha hb hd hst
    refine (h4 _).2 ⟨hp, hloud.2 ?_⟩
    obtain ⟨hdir, _⟩ := (h1.diff f).1 hp
    obtain ⟨c', e1, e2, e3⟩ := C67_checked_class E hup l r f (hk ▸ hkind f) (.bytes x) (.bytes y) a b d
      (openRead_zip hlr.leftOpen hlr.leftConsistent hlr.leftZip hdir hx)
      (openRead_zip hlr.rightOpen hlr.rightConsistent hlr.rightZip hdir hy) ha hb hd
    rw [h3 _ hp, Except.ok.injEq] at e1
    subst e1
    have hst' : d.isChange = true ∧ d.isIgnored o.flags = false := by
      unfold exitStatus at hst
      cases h8 : d.isChange <;> cases h9 : d.isIgnored o.flags <;> simp [h8, h9] at hst ⊢
    refine ⟨e2.trans hst'.1, ?_⟩
    rw [Bool.eq_false_iff, ne_eq, e3]
    rintro (h8 | ⟨_, h8⟩)
    · exact hc h8
    · rw [hst'.2] at h8; simp at h8

/-- A JAR with a changed text, a changed signature block and an added file. -/
def listedJar : Archive :=
  { exploded := false, entries := (demoJar [2] [65, 58, 32, 66, 10, 10] [8]).entries ++
      (zipOf false [("new".toList, [5])]).entries }

/-- The items that the report on it lists. -/
def listedItems (o : DiffOpts) (s : ShowOpts) : Option (List (String × Option Str × Bool × Bool)) :=
  match (jarChange demoEnv (demoJar [1] [65, 58, 32, 66, 10, 10] [7]) listedJar).check with
  | .ok c => some ((jarListing (toJson o s c)).map Json.item)
  | .error _ => none

example : listedItems (jarOpts [("ignore_jar_signature".toList, true)] []) ⟨false, false⟩ =
    some [("JarGenericFileChange", some "doc/a.txt".toList, false, false),
      ("JarContentAdded", some "new".toList, true, false)] := by decide +kernel

example : (listedItems (jarOpts [] []) ⟨true, true⟩).map (fun p => p.map fun q => (q.1, q.2.1)) = some [
    ("JarManifestChange", some "META-INF/MANIFEST.MF".toList), ("JarSignatureFileChange", some "META-INF/A.SF".toList),
    ("JarSignatureBlockFileChange", some "META-INF/A.rsa".toList), ("JarGenericFileChange", some "doc/a.txt".toList),
    ("JarContentAdded", some "new".toList), ("JarClassChange", some "B.class".toList)] := by decide +kernel

end Javatools
