import Verif.Model.JarInfoCli
import Verif.Proofs.Manifest
import Verif.Props.ClassInfoCli
import Verif.Props.Info
import Verif.Props.Zip
/-
C119-C124: what jarinfo and distinfo print.
-/
namespace Javatools
open Spec

/-! ## Specification -/

/-- In the order of the keys. -/
def ByKey {α : Type} (l : List (Str × α)) : Prop := l.Pairwise fun a b => a.1 ≤ b.1

/-- The line of an attribute. -/
def attrLine (i : Str × Str) : Str := "  ".toList ++ i.1 ++ ": ".toList ++ i.2

/-- The lines that list the attributes of a main section and of some sub-sections. -/
def manifestLines (main : List (Str × Str)) (subs : List (List (Str × Str))) : List Str :=
  ["Manifest main section:".toList] ++ main.map attrLine ++
    subs.flatMap (fun s => [[], "Manifest sub-section:".toList] ++ s.map attrLine) ++ [[]]

/-- A text lists a manifest: the attributes of the main section in the order of their keys, and then
the sub-sections in the order of their names, each with its attributes in the order of their keys.
`subs` has the names, the sections and their attributes in order. -/
def ListsManifest (m : Manifest) (t : Str) : Prop :=
  ∃ (main : Section) (subs : List (Str × Section × List (Str × Str))),
    main.Perm m.main ∧ ByKey main ∧
    (subs.map fun p => (p.1, p.2.1)).Perm m.subs ∧ ByKey subs ∧
    (∀ p ∈ subs, p.2.2.Perm p.2.1 ∧ ByKey p.2.2) ∧
    t = unlines (manifestLines main (subs.map fun p => p.2.2))

/-- Manifests with the same attributes, whatever their order. -/
def SameManifest (m n : Manifest) : Prop :=
  m.main.Perm n.main ∧
  (∀ name s, (name, s) ∈ m.subs → ∃ t, (name, t) ∈ n.subs ∧ s.Perm t) ∧
  ∀ name t, (name, t) ∈ n.subs → ∃ s, (name, s) ∈ m.subs ∧ s.Perm t

/-! ## Sorting -/

theorem insertItem_perm {α : Type} (x : Str × α) (l : List (Str × α)) :
    (insertItem x l).Perm (x :: l) := by
  induction l with
  | nil => exact .refl _
  | cons y l ih =>
    simp only [insertItem]
    split
    · exact .refl _
    · exact (ih.cons y).trans (.swap x y l)

theorem sortItems_perm {α : Type} (l : List (Str × α)) : (sortItems l).Perm l := by
  induction l with
  | nil => exact .refl _
  | cons x l ih => exact (insertItem_perm x _).trans (ih.cons x)

theorem insertItem_sorted {α : Type} (x : Str × α) (l : List (Str × α)) (h : ByKey l) :
    ByKey (insertItem x l) := by
  induction l with
  | nil => simp [insertItem, ByKey]
  | cons y l ih =>
    unfold insertItem
    have hy := List.pairwise_cons.1 h
    split
    · rename_i hlt
      have hxy : x.1 ≤ y.1 := List.le_of_lt ((strLt_iff x.1 y.1).1 hlt)
      refine List.pairwise_cons.2 ⟨fun z hz => ?_, h⟩
      rcases List.mem_cons.1 hz with rfl | hz
      · exact hxy
      · exact List.le_trans hxy (hy.1 z hz)
    · rename_i hlt
      have hyx : y.1 ≤ x.1 := by
        rw [← List.not_lt]
        exact fun h => hlt ((strLt_iff x.1 y.1).2 h)
      refine List.pairwise_cons.2 ⟨fun z hz => ?_, ih hy.2⟩
      rcases List.mem_cons.1 ((insertItem_perm x l).mem_iff.1 hz) with rfl | hz
      · exact hyx
      · exact hy.1 z hz

theorem sortItems_sorted {α : Type} (l : List (Str × α)) : ByKey (sortItems l) := by
  induction l with
  | nil => simp [sortItems, ByKey]
  | cons x l ih => exact insertItem_sorted x _ ih

theorem eq_of_key {α : Type} {l : List (Str × α)} (hn : (l.map Prod.fst).Nodup) {a b : Str × α}
    (ha : a ∈ l) (hb : b ∈ l) (h : a.1 = b.1) : a = b := by
  induction l with
  | nil => simp at ha
  | cons x l ih =>
    simp only [List.map_cons, List.nodup_cons, List.mem_map, not_exists, not_and] at hn
    rcases List.mem_cons.1 ha with ea | ha' <;> rcases List.mem_cons.1 hb with eb | hb'
    · rw [ea, eb]
    · exact absurd (by rw [← h, ea]) (hn.1 b hb')
    · exact absurd (by rw [h, eb]) (hn.1 a ha')
    · exact ih hn.2 ha' hb'

theorem nodup_of_keys {α : Type} {l : List (Str × α)} (h : (l.map Prod.fst).Nodup) : l.Nodup := by
  unfold List.Nodup at h ⊢
  rw [List.pairwise_map] at h
  exact h.imp fun hne e => hne (by rw [e])

/-- Lists in order with the same items are the same, if no two items have the same key. -/
theorem byKey_unique {α : Type} {l k : List (Str × α)} (hl : ByKey l) (hk : ByKey k) (h : l.Perm k)
    (hn : (l.map Prod.fst).Nodup) : l = k := by
  refine List.Perm.eq_of_pairwise (fun a b ha hb h1 h2 => ?_) hl hk h
  exact eq_of_key hn ha (h.mem_iff.2 hb) (List.le_antisymm h1 h2)

/-! ## C119 -/

theorem attrLines_eq (is : List (Str × Str)) : attrLines is = (unlines (is.map attrLine), none) := by
  induction is with
  | nil => rfl
  | cons i is ih => simp [attrLines, ih, attrLine]

theorem subLines_eq (ss : List (Str × Section)) :
    subLines ss = (unlines (ss.flatMap fun p =>
      [[], "Manifest sub-section:".toList] ++ (sortItems p.2).map attrLine), none) := by
  induction ss with
  | nil => rfl
  | cons p ss ih =>
    obtain ⟨n, s⟩ := p
    simp only [subLines, attrLines_eq, seqOut_cons, seqOut_nil, sayLine_eq, andThen_none, ih,
      List.flatMap_cons, unlines_append, unlines_cons, List.nil_append, List.append_nil, unlines_nil,
      List.append_assoc, List.cons_append]

theorem cleanItem_version : ∀ i ∈ emptyManifest.main, CleanItem i := by
  intro i hi
  have : i = (kManifestVersion, "1.0".toList) := by simpa [emptyManifest, Manifest.new] using hi
  subst this
  exact ⟨⟨by decide, by decide, by decide⟩, by decide, by decide⟩

theorem loadFromJar_clean {z : Zip} {m : Manifest} (h : loadFromJar z = .ok m) :
    CleanManifest kManifestVersion m := by
  unfold loadFromJar at h
  split at h
  · cases h
  · split at h
    · cases h
    · exact parse_clean cleanItem_version (by decide) ⟨_, [], rfl⟩ ⟨by decide, by simp [emptyManifest, Manifest.new]⟩ h

/-- The listing of a manifest. -/
theorem printManifest_eq {f : JarFile} {z : Zip} {m : Manifest} (hz : f.zip = .ok z)
    (h : loadFromJar z = .ok m) :
    printManifest f = (unlines (manifestLines (sortItems m.main)
      ((sortItems m.subs).map fun p => sortItems p.2)), none) := by
  have hm := loadFromJar_clean h
  unfold printManifest JarFile.manifest
  rw [hz]
  simp only [h, withRes]
  rw [if_neg (by obtain ⟨v, r, hr⟩ := hm.head; simp [hr])]
  simp only [seqOut_cons, seqOut_nil, sayLine_eq, attrLines_eq, subLines_eq, andThen_none, manifestLines,
    unlines_append, unlines_cons, unlines_nil, List.nil_append, List.append_nil, List.flatMap_map,
    List.append_assoc, List.cons_append]

/-- C119. The listing has all attributes of the main section and of all sub-sections, in order, each
once. -/
theorem C119_lists (f : JarFile) (z : Zip) (m : Manifest) (hz : f.zip = .ok z)
    (h : loadFromJar z = .ok m) : ∃ t, printManifest f = (t, none) ∧ ListsManifest m t := by
  refine ⟨_, printManifest_eq hz h, sortItems m.main,
    (sortItems m.subs).map fun p => (p.1, p.2, sortItems p.2), sortItems_perm _, sortItems_sorted _,
    ?_, ?_, ?_, ?_⟩
  · rw [List.map_map]
    simpa [Function.comp_def] using sortItems_perm m.subs
  · unfold ByKey
    rw [List.pairwise_map]
    exact sortItems_sorted m.subs
  · intro p hp
    obtain ⟨q, _, rfl⟩ := List.mem_map.1 hp
    exact ⟨sortItems_perm _, sortItems_sorted _⟩
  · simp [Function.comp_def]

theorem attrLine_injective {i j : Str × Str} (hi : ':' ∉ i.1) (hj : ':' ∉ j.1)
    (h : attrLine i = attrLine j) : i = j := by
  obtain ⟨k, v⟩ := i
  obtain ⟨l, w⟩ := j
  have h' : k ++ ':' :: (' ' :: v) = l ++ ':' :: (' ' :: w) := by
    simpa [attrLine] using h
  obtain ⟨rfl, h2⟩ := split_first hi hj h'
  simp only [List.cons.injEq, true_and] at h2
  rw [h2]

theorem attrLine_ne (i : Str × Str) : attrLine i ≠ [] := by simp [attrLine]

theorem attrLines_split {xs ys : List (Str × Str)} {r s : List Str} (hx : ∀ i ∈ xs, ':' ∉ i.1)
    (hy : ∀ i ∈ ys, ':' ∉ i.1) (h : xs.map attrLine ++ [] :: r = ys.map attrLine ++ [] :: s) :
    xs = ys ∧ r = s := by
  induction xs generalizing ys with
  | nil =>
    cases ys with
    | nil => simpa using h
    | cons y ys => exact absurd (List.cons.inj h).1.symm (attrLine_ne y)
  | cons x xs ih =>
    cases ys with
    | nil => exact absurd (List.cons.inj h).1 (attrLine_ne x)
    | cons y ys =>
      obtain ⟨h1, h2⟩ := List.cons.inj h
      obtain ⟨h3, h4⟩ := ih (fun i hi => hx i (by simp [hi])) (fun i hi => hy i (by simp [hi])) h2
      exact ⟨by rw [attrLine_injective (hx x (by simp)) (hy y (by simp)) h1, h3], h4⟩

/-- What follows the main section. -/
def subTail (subs : List (List (Str × Str))) : List Str :=
  subs.flatMap (fun s => [[], "Manifest sub-section:".toList] ++ s.map attrLine) ++ [[]]

theorem subTail_cons (s : List (Str × Str)) (ss : List (List (Str × Str))) :
    subTail (s :: ss) = [] :: "Manifest sub-section:".toList :: (s.map attrLine ++ subTail ss) := by
  simp [subTail]

theorem subTail_head (ss : List (List (Str × Str))) : ∃ r, subTail ss = [] :: r := by
  cases ss with
  | nil => exact ⟨[], rfl⟩
  | cons s ss => exact ⟨_, subTail_cons s ss⟩

theorem subTail_injective {xs ys : List (List (Str × Str))} (hx : ∀ s ∈ xs, ∀ i ∈ s, ':' ∉ i.1)
    (hy : ∀ s ∈ ys, ∀ i ∈ s, ':' ∉ i.1) (h : subTail xs = subTail ys) : xs = ys := by
  induction xs generalizing ys with
  | nil =>
    cases ys with
    | nil => rfl
    | cons y ys => rw [subTail_cons] at h; simp [subTail] at h
  | cons x xs ih =>
    cases ys with
    | nil => rw [subTail_cons] at h; simp [subTail] at h
    | cons y ys =>
      rw [subTail_cons, subTail_cons] at h
      have h' := (List.cons.inj (List.cons.inj h).2).2
      obtain ⟨r, hr⟩ := subTail_head xs
      obtain ⟨r', hr'⟩ := subTail_head ys
      rw [hr, hr'] at h'
      obtain ⟨h1, h2⟩ := attrLines_split (hx x (by simp)) (hy y (by simp)) h'
      have h3 := ih (fun s hs => hx s (List.mem_cons_of_mem _ hs))
        (fun s hs => hy s (List.mem_cons_of_mem _ hs)) (by rw [hr, hr', h2])
      rw [h1, h3]

theorem manifestLines_injective {a b : List (Str × Str)} {xs ys : List (List (Str × Str))}
    (ha : ∀ i ∈ a, ':' ∉ i.1) (hb : ∀ i ∈ b, ':' ∉ i.1) (hx : ∀ s ∈ xs, ∀ i ∈ s, ':' ∉ i.1)
    (hy : ∀ s ∈ ys, ∀ i ∈ s, ':' ∉ i.1) (h : manifestLines a xs = manifestLines b ys) :
    a = b ∧ xs = ys := by
  have e : ∀ (a : List (Str × Str)) xs,
      manifestLines a xs = "Manifest main section:".toList :: (a.map attrLine ++ subTail xs) := by
    intro a xs
    simp [manifestLines, subTail]
  rw [e, e] at h
  have h' := (List.cons.inj h).2
  obtain ⟨r, hr⟩ := subTail_head xs
  obtain ⟨r', hr'⟩ := subTail_head ys
  rw [hr, hr'] at h'
  obtain ⟨h1, h2⟩ := attrLines_split ha hb h'
  exact ⟨h1, subTail_injective hx hy (by rw [hr, hr', h2])⟩

theorem CleanItem.line {i : Str × Str} (h : CleanItem i) : '\n' ∉ attrLine i := by
  have := h.safe
  simp [attrLine, this.key_lf, this.val_lf]

theorem manifestLines_noBreak {a : List (Str × Str)} {xs : List (List (Str × Str))}
    (ha : ∀ i ∈ a, CleanItem i) (hx : ∀ s ∈ xs, ∀ i ∈ s, CleanItem i) :
    ∀ l ∈ manifestLines a xs, '\n' ∉ l := by
  intro l hl
  have h1 : '\n' ∉ "Manifest main section:".toList := by decide
  have h2 : '\n' ∉ "Manifest sub-section:".toList := by decide
  simp only [manifestLines, List.mem_append, List.mem_singleton, List.mem_map, List.mem_flatMap,
    List.mem_cons, List.not_mem_nil, or_false] at hl
  rcases hl with ((rfl | ⟨i, hi, rfl⟩) | ⟨s, hs, (rfl | rfl) | ⟨i, hi, rfl⟩⟩) | rfl
  · exact h1
  · exact (ha i hi).line
  · simp
  · exact h2
  · exact (hx s hs i hi).line
  · simp

theorem primary_perm {s t : Section} (hs : CleanSub s) (ht : CleanSub t) (h : s.Perm t) :
    primary s = primary t := by
  obtain ⟨v, r, rfl⟩ := hs.named
  obtain ⟨w, r', rfl⟩ := ht.named
  have := eq_of_key ht.nodup (h.mem_iff.1 (by simp : (kName, v) ∈ (kName, v) :: r))
    (by simp : (kName, w) ∈ (kName, w) :: r') rfl
  simp only [Prod.mk.injEq, true_and] at this
  simp [primary, PyDict.get?, this]

/-- C119. Two JARs have the same listing exactly if their manifests have the same attributes. -/
theorem C119_same (f g : JarFile) (y z : Zip) (m n : Manifest) (hy : f.zip = .ok y)
    (hz : g.zip = .ok z) (hm : loadFromJar y = .ok m) (hn : loadFromJar z = .ok n) :
    printManifest f = printManifest g ↔ SameManifest m n := by
  have cm := loadFromJar_clean hm
  have cn := loadFromJar_clean hn
  rw [printManifest_eq hy hm, printManifest_eq hz hn]
  have hitems : ∀ {k : Manifest}, CleanManifest kManifestVersion k →
      (∀ i ∈ sortItems k.main, CleanItem i) ∧
      ∀ s ∈ (sortItems k.subs).map (fun p => sortItems p.2), ∀ i ∈ s, CleanItem i := by
    intro k ck
    refine ⟨fun i hi => ck.items i ((sortItems_perm _).mem_iff.1 hi), ?_⟩
    intro s hs i hi
    obtain ⟨p, hp, rfl⟩ := List.mem_map.1 hs
    exact (ck.subs.clean p ((sortItems_perm _).mem_iff.1 hp)).1.items i ((sortItems_perm _).mem_iff.1 hi)
  have hsub : ∀ {k l : Manifest}, CleanManifest kManifestVersion k → CleanManifest kManifestVersion l →
      (sortItems k.subs).map (fun p => sortItems p.2) = (sortItems l.subs).map (fun p => sortItems p.2) →
      ∀ name s, (name, s) ∈ k.subs → ∃ t, (name, t) ∈ l.subs ∧ s.Perm t := by
    intro k l ck cl h name s hs
    have h1 : sortItems s ∈ (sortItems k.subs).map (fun p => sortItems p.2) :=
      List.mem_map.2 ⟨(name, s), (sortItems_perm _).mem_iff.2 hs, rfl⟩
    rw [h] at h1
    obtain ⟨⟨name', t⟩, ht, h2⟩ := List.mem_map.1 h1
    have ht := (sortItems_perm _).mem_iff.1 ht
    have hp : s.Perm t := by
      have := (sortItems_perm t).symm
      rw [show sortItems t = sortItems s from h2] at this
      exact (this.trans (sortItems_perm s)).symm
    have e1 := (ck.subs.clean _ hs)
    have e2 := (cl.subs.clean _ ht)
    have : name' = name := by
      rw [show name' = primary t from e2.2, show name = primary s from e1.2]
      exact (primary_perm e1.1 e2.1 hp).symm
    subst this
    exact ⟨t, ht, hp⟩
  constructor
  · intro h
    have h := (Prod.mk.inj h).1
    have h := unlines_injective (manifestLines_noBreak (hitems cm).1 (hitems cm).2)
      (manifestLines_noBreak (hitems cn).1 (hitems cn).2) h
    obtain ⟨h1, h2⟩ := manifestLines_injective
      (fun i hi => ((hitems cm).1 i hi).key.colon) (fun i hi => ((hitems cn).1 i hi).key.colon)
      (fun s hs i hi => ((hitems cm).2 s hs i hi).key.colon)
      (fun s hs i hi => ((hitems cn).2 s hs i hi).key.colon) h
    refine ⟨?_, hsub cm cn h2, ?_⟩
    · have := (sortItems_perm m.main).symm
      rw [h1] at this
      exact this.trans (sortItems_perm n.main)
    · intro name t ht
      obtain ⟨s, hs, hp⟩ := hsub cn cm h2.symm name t ht
      exact ⟨s, hs, hp.symm⟩
  · rintro ⟨h1, h2, h3⟩
    have e1 : sortItems m.main = sortItems n.main :=
      byKey_unique (sortItems_sorted _) (sortItems_sorted _)
        ((sortItems_perm _).trans (h1.trans (sortItems_perm _).symm))
        (((sortItems_perm m.main).map Prod.fst).nodup_iff.2 cm.nodup)
    have e2 : (sortItems m.subs).map (fun p => (p.1, sortItems p.2)) =
        (sortItems n.subs).map (fun p => (p.1, sortItems p.2)) := by
      have sorted : ∀ k : Manifest, ByKey ((sortItems k.subs).map fun p => (p.1, sortItems p.2)) := by
        intro k
        unfold ByKey
        rw [List.pairwise_map]
        exact sortItems_sorted k.subs
      have nod : ∀ k : Manifest, CleanManifest kManifestVersion k →
          (((sortItems k.subs).map fun p => (p.1, sortItems p.2)).map Prod.fst).Nodup := by
        intro k ck
        rw [List.map_map]
        exact ((sortItems_perm k.subs).map Prod.fst).nodup_iff.2 ck.subs.nodup
      have same : ∀ {k l : Manifest}, CleanManifest kManifestVersion k →
          (∀ name s, (name, s) ∈ k.subs → ∃ t, (name, t) ∈ l.subs ∧ s.Perm t) →
          ∀ x ∈ (sortItems k.subs).map (fun p => (p.1, sortItems p.2)),
            x ∈ (sortItems l.subs).map (fun p => (p.1, sortItems p.2)) := by
        intro k l ck hk x hx
        obtain ⟨⟨name, s⟩, hs, rfl⟩ := List.mem_map.1 hx
        have hs := (sortItems_perm _).mem_iff.1 hs
        obtain ⟨t, ht, hp⟩ := hk name s hs
        refine List.mem_map.2 ⟨(name, t), (sortItems_perm _).mem_iff.2 ht, ?_⟩
        rw [Prod.mk.injEq]
        refine ⟨rfl, ?_⟩
        have cs := (ck.subs.clean _ hs).1
        refine (byKey_unique (sortItems_sorted s) (sortItems_sorted t)
          ((sortItems_perm _).trans (hp.trans (sortItems_perm _).symm))
          (((sortItems_perm s).map Prod.fst).nodup_iff.2 cs.nodup)).symm
      refine byKey_unique (sorted m) (sorted n) ?_ (nod m cm)
      refine (List.perm_ext_iff_of_nodup (nodup_of_keys (nod m cm)) (nodup_of_keys (nod n cn))).2 ?_
      intro x
      refine ⟨same cm h2 x, same cn (fun name t ht => ?_) x⟩
      obtain ⟨s, hs, hp⟩ := h3 name t ht
      exact ⟨s, hs, hp.symm⟩
    have e3 : (sortItems m.subs).map (fun p => sortItems p.2) =
        (sortItems n.subs).map (fun p => sortItems p.2) := by
      simpa [List.map_map, Function.comp_def] using congrArg (List.map Prod.snd) e2
    rw [e1, e3]

/-- A JAR whose manifest has these lines. -/
def jarWith (text : String) : JarFile :=
  { archive := .error .keyError, zip := .ok [("META-INF/MANIFEST.MF".toList, text.toUTF8.toList)] }

example : printManifest (jarWith "B: 1\r\nA: 2\r\n\r\nName: z\r\n\r\nName: y\r\nK: v\r\n w\r\n") =
    ("Manifest main section:\n  A: 2\n  B: 1\n  Manifest-Version: 1.0\n\nManifest sub-section:\n  K: vw\n  Name: y\n\nManifest sub-section:\n  Name: z\n\n".toList,
      none) := by decide +kernel

/-! ## C120 -/

/-- The report that there is no manifest. -/
def notPresent : Out := ("Manifest not present.\n\n".toList, none)

/-- C120 in full. -/
def C120_full : Prop :=
  ∀ (f : JarFile) (z : Zip), f.zip = .ok z →
    (printManifest f = notPresent ↔ "META-INF/MANIFEST.MF".toList ∉ z.map Prod.fst)

/-- C120. Without a manifest nothing is printed and a `MissingManifestError` is raised. -/
theorem C120_missing (f : JarFile) (z : Zip) (hz : f.zip = .ok z)
    (h : "META-INF/MANIFEST.MF".toList ∉ z.map Prod.fst) :
    printManifest f = ([], some (.other "MissingManifestError")) := by
  have : loadFromJar z = .error (.other "MissingManifestError") := by
    unfold loadFromJar
    exact if_pos h
  unfold printManifest JarFile.manifest
  rw [hz]
  simp only [this, withRes]

/-- C120. What is printed is nothing, because of an exception, or a listing. -/
theorem C120_never (f : JarFile) :
    (∃ e, printManifest f = ([], some e)) ∨
    ∃ t, printManifest f = ("Manifest main section:\n".toList ++ t, none) := by
  cases hz : f.zip with
  | error e =>
    left
    refine ⟨e, ?_⟩
    unfold printManifest JarFile.manifest
    rw [hz]
    rfl
  | ok z =>
    cases hm : loadFromJar z with
    | error e =>
      left
      refine ⟨e, ?_⟩
      unfold printManifest JarFile.manifest
      rw [hz]
      simp only [hm, withRes]
    | ok m =>
      right
      rw [printManifest_eq hz hm]
      generalize sortItems m.main = a
      generalize (sortItems m.subs).map (fun p => sortItems p.2) = b
      refine ⟨unlines (a.map attrLine ++ subTail b), ?_⟩
      have e : manifestLines a b = "Manifest main section:".toList :: (a.map attrLine ++ subTail b) := by
        simp [manifestLines, subTail]
      have n : "Manifest main section:\n".toList = "Manifest main section:".toList ++ ['\n'] := by
        decide +kernel
      rw [e, unlines_cons, n, List.append_assoc]
      rfl

theorem not_notPresent (f : JarFile) : printManifest f ≠ notPresent := by
  intro h
  rcases C120_never f with ⟨e, h'⟩ | ⟨t, h'⟩
  · have h2 := congrArg Prod.snd (h'.symm.trans h)
    exact nomatch (show some e = none from h2)
  · have h2 := congrArg (fun o : Out => o.1.take 22) (h'.symm.trans h)
    have l : 22 ≤ "Manifest main section:\n".toList.length := by decide +kernel
    have h3 : "Manifest main section:\n".toList.take 22 = notPresent.1.take 22 :=
      (List.take_append_of_le_length l).symm.trans h2
    revert h3
    decide +kernel

theorem C120_full_fails : ¬ C120_full := by
  intro h
  exact not_notPresent _ ((h { archive := .error .keyError, zip := .ok [] } [] rfl).2 (by simp))

/-- C120 for JARs that have a manifest: they are not reported to have none. Missing: those that have
none, see `C120_missing`. -/
theorem C120_partial (f : JarFile) (z : Zip) (_hz : f.zip = .ok z)
    (h : "META-INF/MANIFEST.MF".toList ∈ z.map Prod.fst) :
    printManifest f = notPresent ↔ "META-INF/MANIFEST.MF".toList ∉ z.map Prod.fst :=
  ⟨fun e => absurd e (not_notPresent f), fun e => absurd h e⟩

example : printManifest { archive := .error .keyError, zip := .ok [("A.class".toList, [])] } =
    ([], some (.other "MissingManifestError")) := by decide +kernel

/-! ## C121 -/

/-- The class entries of an archive, in its order. -/
def classNames (a : Archive) : List Str :=
  (a.entries.map ZEntry.name).filter fun n => decide (".class".toList <:+ n)

/-- What `--jar-classes` shows of an entry, given the listing of the class. -/
def entryText (n listing : Str) : Str := "Entry:  ".toList ++ n ++ ['\n'] ++ listing ++ ['\n']

theorem classes_eq (a : Archive) (ho : a.closed = false) : a.classes = .ok (classNames a) := by
  unfold Archive.classes Archive.namelist classNames
  rw [if_neg (by simp [ho])]
  simp only [Except.map]
  congr 1
  refine List.filter_congr fun n _ => ?_
  have := class_pattern n
  rw [Bool.eq_iff_iff, this]
  simp

theorem classInfo_of {lim : Nat} {a : Archive} {n : Str} {c : ClassInfo} (h : JarClass lim a n c) :
    a.classInfo lim n = .ok c := by
  obtain ⟨_, _, x, h1, h2⟩ := h
  unfold Archive.classInfo
  rw [h1]
  exact h2

/-- Classes that can be shown, and then something. -/
theorem classesLoop_append (E : PrintEnv) (o : InfoArgs) (a : Archive) (texts : Str → Str)
    (ns rest : List Str)
    (h : ∀ n ∈ ns, ∃ c, JarClass E.lim a n c ∧ printClassinfo E o c = (texts n, none)) :
    classesLoop E o a (ns ++ rest) = ((ns.flatMap fun n => entryText n (texts n)) ++
      (classesLoop E o a rest).1, (classesLoop E o a rest).2) := by
  induction ns with
  | nil => simp
  | cons n ns ih =>
    obtain ⟨c, h1, h2⟩ := h n (by simp)
    have ih := ih fun n hn => h n (by simp [hn])
    have step : withRes (a.classInfo E.lim n) (fun c =>
        seqOut [sayLine ("Entry:  ".toList ++ n), printClassinfo E o c, sayLine []]) =
        (entryText n (texts n), none) := by
      rw [classInfo_of h1]
      unfold withRes entryText
      generalize "Entry:  ".toList = x
      simp only [h2, seqOut_cons, seqOut_nil, sayLine_eq, andThen_none, List.append_assoc,
        List.append_nil, List.nil_append]
    rw [List.cons_append, classesLoop, step, ih, List.flatMap_cons]
    generalize entryText n (texts n) = x
    simp

/-- Only the classes. -/
theorem report_classes (E : PrintEnv) (pct : Nat → Nat → Str) (o : InfoArgs) (f : JarFile)
    (a : Archive) (ha : f.archive = .ok a) (ho : a.closed = false) :
    jarReport E pct { classes := true, info := o } f = classesLoop E o a (classNames a) := by
  unfold jarReport jarParts
  simp only [runParts, partIf, Bool.false_eq_true, if_false, if_true, printClasses, JarInfo.getZipfile, ha,
    withRes, classes_eq a ho, List.nil_append]
  generalize classesLoop E o a (classNames a) = r
  obtain ⟨t, x⟩ := r
  cases x <;> simp

/-- C121. If every class can be read and shown, the report has each class entry once, in the order of
the archive, with the listing of the class. -/
theorem C121_all (E : PrintEnv) (pct : Nat → Nat → Str) (o : InfoArgs) (f : JarFile) (a : Archive)
    (ha : f.archive = .ok a) (ho : a.closed = false) (texts : Str → Str)
    (h : ∀ n ∈ classNames a, ∃ c, JarClass E.lim a n c ∧ printClassinfo E o c = (texts n, none)) :
    jarReport E pct { classes := true, info := o } f =
      ((classNames a).flatMap fun n => entryText n (texts n), none) := by
  rw [report_classes E pct o f a ha ho]
  have := classesLoop_append E o a texts (classNames a) [] h
  simpa [classesLoop] using this

/-- C121. The first class that cannot be read ends the report; what comes before is there. -/
theorem C121_unreadable (E : PrintEnv) (pct : Nat → Nat → Str) (o : InfoArgs) (f : JarFile)
    (a : Archive) (ha : f.archive = .ok a) (ho : a.closed = false) (texts : Str → Str)
    (before after : List Str) (n : Str) (e : PyErr) (hn : classNames a = before ++ n :: after)
    (h : ∀ n ∈ before, ∃ c, JarClass E.lim a n c ∧ printClassinfo E o c = (texts n, none))
    (he : a.classInfo E.lim n = .error e) :
    jarReport E pct { classes := true, info := o } f =
      (before.flatMap fun n => entryText n (texts n), some e) := by
  rw [report_classes E pct o f a ha ho, hn, classesLoop_append E o a texts before _ h]
  simp [classesLoop, he, withRes]

/-- C121. A class whose listing breaks off ends the report there. -/
theorem C121_broken (E : PrintEnv) (pct : Nat → Nat → Str) (o : InfoArgs) (f : JarFile)
    (a : Archive) (ha : f.archive = .ok a) (ho : a.closed = false) (texts : Str → Str)
    (before after : List Str) (n t : Str) (c : ClassInfo) (e : PyErr)
    (hn : classNames a = before ++ n :: after)
    (h : ∀ n ∈ before, ∃ c, JarClass E.lim a n c ∧ printClassinfo E o c = (texts n, none))
    (hc : JarClass E.lim a n c) (he : printClassinfo E o c = (t, some e)) :
    jarReport E pct { classes := true, info := o } f =
      ((before.flatMap fun n => entryText n (texts n)) ++ ("Entry:  ".toList ++ n ++ ['\n'] ++ t),
        some e) := by
  rw [report_classes E pct o f a ha ho, hn, classesLoop_append E o a texts before _ h]
  unfold classesLoop
  rw [classInfo_of hc]
  unfold withRes
  generalize "Entry:  ".toList = x
  simp [he]

/-! ### The parts and the files -/

/-- The object is the one made for the file, up to what it has cached. -/
def JarInfo.For (lim : Nat) (f : JarFile) (j : JarInfo) : Prop :=
  match f.archive with
  | .ok a => j.About lim a
  | .error e => j = { file := some (.error e) }

theorem JarInfo.for_new (lim : Nat) (f : JarFile) : JarInfo.For lim f { file := some f.archive } := by
  unfold JarInfo.For
  cases h : f.archive with
  | error e => rfl
  | ok a => exact (MadeFor.about (.inl rfl) lim)

/-- A part prints the same whatever is cached. -/
def PartFor (lim : Nat) (f : JarFile) (p : JarPart) : Prop :=
  ∀ j, JarInfo.For lim f j →
    (p j).1 = (p { file := some f.archive }).1 ∧ JarInfo.For lim f (p j).2

theorem partIf_for {lim : Nat} {f : JarFile} {p : JarPart} (b : Bool) (h : PartFor lim f p) :
    PartFor lim f (partIf b p) := by
  intro j hj
  cases b
  · exact ⟨rfl, hj⟩
  · exact h j hj

theorem getZipfile_for {lim : Nat} {f : JarFile} {j : JarInfo} (h : JarInfo.For lim f j) :
    j.getZipfile.1 = f.archive ∧ JarInfo.For lim f j.getZipfile.2 := by
  unfold JarInfo.For at h ⊢
  cases ha : f.archive with
  | error e =>
    rw [ha] at h
    simp only at h
    subst h
    exact ⟨rfl, rfl⟩
  | ok a =>
    rw [ha] at h
    simp only at h ⊢
    obtain ⟨j', h1, h2, h3, h4, h5⟩ := JarInfo.getZipfile_about h
    rw [h1]
    refine ⟨rfl, .inl h3, ?_⟩
    simp only
    rw [h4, h5]
    exact h.2

theorem accessors_for {lim : Nat} {f : JarFile} {j : JarInfo} (h : JarInfo.For lim f j)
    (ig : List Str) :
    (j.getProvides lim ig).1 = (({ file := some f.archive } : JarInfo).getProvides lim ig).1 ∧
    JarInfo.For lim f (j.getProvides lim ig).2 ∧
    (j.getRequires lim ig).1 = (({ file := some f.archive } : JarInfo).getRequires lim ig).1 ∧
    JarInfo.For lim f (j.getRequires lim ig).2 := by
  have hn := JarInfo.for_new lim f
  unfold JarInfo.For at h hn ⊢
  cases ha : f.archive with
  | error e =>
    rw [ha] at h
    simp only at h
    subst h
    exact ⟨rfl, rfl, rfl, rfl⟩
  | ok a =>
    rw [ha] at h hn
    simp only at h hn ⊢
    obtain ⟨a1, a2, a3, _, a5, _⟩ := JarInfo.accessors h ig
    obtain ⟨b1, b2, _⟩ := JarInfo.accessors hn ig
    exact ⟨by rw [a2, b2], a5, by rw [a1, b1], a3⟩

theorem printZip_for (lim : Nat) (pct : Nat → Nat → Str) (f : JarFile) : PartFor lim f (printZip pct) := by
  intro j hj
  obtain ⟨h1, h2⟩ := getZipfile_for hj
  obtain ⟨h3, _⟩ := getZipfile_for (JarInfo.for_new lim f)
  unfold printZip
  simp only [h1, h3]
  exact ⟨trivial, h2⟩

theorem printManifest_for (lim : Nat) (f : JarFile) : PartFor lim f (fun j => (printManifest f, j)) :=
  fun _ hj => ⟨rfl, hj⟩

theorem printProvides_for (E : PrintEnv) (ig : List Str) (f : JarFile) :
    PartFor E.lim f (printProvides E ig) := by
  intro j hj
  obtain ⟨h1, h2, _, _⟩ := accessors_for hj []
  unfold printProvides
  simp only [h1]
  exact ⟨trivial, h2⟩

theorem printRequires_for (E : PrintEnv) (ig : List Str) (f : JarFile) :
    PartFor E.lim f (printRequires E ig) := by
  intro j hj
  obtain ⟨_, _, h1, h2⟩ := accessors_for hj []
  unfold printRequires
  simp only [h1]
  exact ⟨trivial, h2⟩

theorem printClasses_for (E : PrintEnv) (o : InfoArgs) (f : JarFile) :
    PartFor E.lim f (printClasses E o) := by
  intro j hj
  obtain ⟨h1, h2⟩ := getZipfile_for hj
  obtain ⟨h3, _⟩ := getZipfile_for (JarInfo.for_new E.lim f)
  unfold printClasses
  simp only [h1, h3]
  exact ⟨trivial, h2⟩

theorem runParts_for {lim : Nat} {f : JarFile} (ps : List JarPart) (h : ∀ p ∈ ps, PartFor lim f p)
    (j : JarInfo) (hj : JarInfo.For lim f j) :
    (runParts ps j).1 = seqOut (ps.map fun p => (p { file := some f.archive }).1) := by
  induction ps generalizing j with
  | nil => rfl
  | cons p ps ih =>
    obtain ⟨h1, h2⟩ := h p (by simp) j hj
    have h3 := ih (fun q hq => h q (by simp [hq])) (p j).2 h2
    simp only [runParts, List.map_cons, seqOut_cons, ← h1]
    generalize p j = r at h3 ⊢
    obtain ⟨⟨t, x⟩, j'⟩ := r
    cases x with
    | some e => rfl
    | none => simp only [h3, andThen_none]

theorem jarReport_eq (E : PrintEnv) (pct : Nat → Nat → Str) (o : JarArgs) (f : JarFile) :
    jarReport E pct o f = seqOut [
      onlyIf o.zip (printZip pct { file := some f.archive }).1,
      onlyIf o.manifest (printManifest f),
      onlyIf o.provides (printProvides E o.info.apiIgnore { file := some f.archive }).1,
      onlyIf o.requires (printRequires E o.info.apiIgnore { file := some f.archive }).1,
      onlyIf o.classes (printClasses E o.info { file := some f.archive }).1] := by
  unfold jarReport
  rw [runParts_for (lim := E.lim) (f := f) _ ?_ _ (JarInfo.for_new E.lim f)]
  · unfold jarParts
    simp only [List.map_cons, List.map_nil]
    have e : ∀ (b : Bool) (p : JarPart) j, (partIf b p j).1 = onlyIf b (p j).1 := by
      intro b p j
      cases b <;> rfl
    simp only [e]
  · intro p hp
    simp only [jarParts, List.mem_cons, List.not_mem_nil, or_false] at hp
    rcases hp with rfl | rfl | rfl | rfl | rfl
    · exact partIf_for _ (printZip_for _ _ _)
    · exact partIf_for _ (printManifest_for _ _)
    · exact partIf_for _ (printProvides_for _ _ _)
    · exact partIf_for _ (printRequires_for _ _ _)
    · exact partIf_for _ (printClasses_for _ _ _)

/-- C121. The report is made of the reports for the single options, in a fixed order, up to the first
exception. -/
theorem C121_parts (E : PrintEnv) (pct : Nat → Nat → Str) (o : JarArgs) (f : JarFile) :
    jarReport E pct o f = seqOut [
      onlyIf o.zip (jarReport E pct { zip := true, info := o.info } f),
      onlyIf o.manifest (jarReport E pct { manifest := true, info := o.info } f),
      onlyIf o.provides (jarReport E pct { provides := true, info := o.info } f),
      onlyIf o.requires (jarReport E pct { requires := true, info := o.info } f),
      onlyIf o.classes (jarReport E pct { classes := true, info := o.info } f)] := by
  rw [jarReport_eq E pct o]
  simp only [jarReport_eq E pct { zip := true, info := o.info }, jarReport_eq E pct { manifest := true, info := o.info },
    jarReport_eq E pct { provides := true, info := o.info }, jarReport_eq E pct { requires := true, info := o.info },
    jarReport_eq E pct { classes := true, info := o.info }]
  simp

/-- C121. The reports of the files come one after the other; an exception ends them all. -/
theorem C121_files (E : PrintEnv) (pct : Nat → Nat → Str) (o : JarArgs) (before after : List JarFile)
    (f : JarFile) (texts : List Str)
    (h : before.map (jarReport E pct o.norm) = texts.map fun t => (t, none)) :
    jarinfoCli E pct o before = (texts.flatten, none) ∧
    (∀ t e, jarReport E pct o.norm f = (t, some e) →
      jarinfoCli E pct o (before ++ f :: after) = (texts.flatten ++ t, some e)) := by
  have key : seqOut (texts.map fun t => (t, none)) = (texts.flatten, none) := by
    clear h
    induction texts with
    | nil => rfl
    | cons t ts ih => simp [ih]
  unfold jarinfoCli
  refine ⟨by rw [h, key], fun t e ht => ?_⟩
  rw [List.map_append, seqOut_append, h, key, List.map_cons, seqOut_cons, ht]
  rfl

/-- A JAR with the classes `A` and `B` and another file. -/
def symbolFile : JarFile := { archive := .ok (symbolJar false), zip := .ok [] }

example : jarReport listEnv (fun _ _ => []) { requires := true, classes := true } symbolFile =
    ("jar requires:\n  C\n\nEntry:  A.class\npublic class A extends B{\n}\n\n\nEntry:  B.class\npublic class B extends C{\n}\n\n\n".toList,
      none) := by decide +kernel

/-! ## C122 -/

theorem printed_perm (ig : List Str) (d : SymMap (String × Str)) :
    (printedSymbols sortNames ig d).Perm (PyDict.keys (withoutIgnored ig d)) := by
  unfold printedSymbols
  refine ((sortNames_perm _).filter _).trans ?_
  have : PyDict.keys (withoutIgnored ig d) = (PyDict.keys d).filter fun k => !fnmatches k ig := by
    unfold withoutIgnored
    split
    · rename_i h0
      subst h0
      symm
      rw [List.filter_eq_self]
      intro k _
      rfl
    · simp only [PyDict.keys, List.filter_map]
      rfl
  rw [this]

theorem printed_sorted (ig : List Str) (d : SymMap (String × Str)) :
    (printedSymbols sortNames ig d).Pairwise (· ≤ ·) :=
  (sortNames_sorted _).sublist List.filter_sublist

/-- A list of symbols under a title. -/
def symbolText (title : String) (names : List Str) : Str :=
  title.toList ++ ['\n'] ++ unlines (names.map fun n => "  ".toList ++ n) ++ ['\n']

/-- The names are those with the property, in order, each once. -/
def SortedNames (names : List Str) (P : Str → Prop) : Prop :=
  names.Nodup ∧ names.Pairwise (· ≤ ·) ∧ ∀ s, s ∈ names ↔ P s

section
variable (E : PrintEnv) (pct : Nat → Nat → Str) (o : InfoArgs) (f : JarFile) (a : Archive)
  (ha : f.archive = .ok a)
include ha

/-- Every class of the JAR can be read and gives its symbols. -/
def JarReadable (lim : Nat) (a : Archive) : Prop :=
  ∀ e ∈ a.entries, ".class".toList <:+ e.name → ∃ c x, JarClass lim a e.name c ∧ classSymbols lim c = .ok x

/-- C122. `--jar-provides` lists the public symbols of the classes that no pattern matches, in order,
each once. -/
theorem C122_provides (ho : a.closed = false) (hr : JarReadable E.lim a) :
    ∃ names, SortedNames names (fun s => (∃ n, JarOffers E.lim a false s n) ∧ ¬ Ignored o.apiIgnore s) ∧
      jarReport E pct { provides := true, info := o } f = (symbolText "jar provides:" names, none) := by
  have hm : MadeFor { file := some (.ok a) } a := .inl rfl
  obtain ⟨d, hd⟩ := (C65_returns E.lim a _ hm [] (.inl rfl) [] ho).2.2 hr
  obtain ⟨d', hd'⟩ := (C65_returns E.lim a _ hm [] (.inl rfl) o.apiIgnore ho).2.2 hr
  obtain ⟨p1, p2, _⟩ := C65_provides E.lim a _ hm [] (.inl rfl) o.apiIgnore d' hd'
  have hp := C78_printed sortNames sortNames_perm E.lim a _ hm [] (.inl rfl) o.apiIgnore d d' (.inr ⟨hd, hd'⟩)
  refine ⟨printedSymbols sortNames o.apiIgnore d, ⟨hp.1.nodup_iff.2 p1, printed_sorted _ _, fun s => ?_⟩, ?_⟩
  · rw [hp.1.mem_iff, p2]
  · have hd2 : (({ file := some f.archive } : JarInfo).getProvides E.lim []).1 = .ok d := by rw [ha]; exact hd
    rw [jarReport_eq]
    unfold printProvides symbolText
    simp only [hd2]
    generalize "jar provides:".toList = x
    simp [nameLines_eq, withRes]

/-- C122. `--jar-requires` lists the symbols that a class needs and none has, and that no pattern
matches, in order, each once. -/
theorem C122_requires (ho : a.closed = false) (hr : JarReadable E.lim a) :
    ∃ names, SortedNames names (fun s => JarExternal E.lim a s ∧ ¬ Ignored o.apiIgnore s) ∧
      jarReport E pct { requires := true, info := o } f = (symbolText "jar requires:" names, none) := by
  have hm : MadeFor { file := some (.ok a) } a := .inl rfl
  obtain ⟨d, hd⟩ := (C65_returns E.lim a _ hm [] (.inl rfl) [] ho).1.2 hr
  obtain ⟨d', hd'⟩ := (C65_returns E.lim a _ hm [] (.inl rfl) o.apiIgnore ho).1.2 hr
  obtain ⟨p1, p2, _⟩ := C65_requires E.lim a _ hm [] (.inl rfl) o.apiIgnore d' hd'
  have hp := C78_printed sortNames sortNames_perm E.lim a _ hm [] (.inl rfl) o.apiIgnore d d' (.inl ⟨hd, hd'⟩)
  refine ⟨printedSymbols sortNames o.apiIgnore d, ⟨hp.1.nodup_iff.2 p1, printed_sorted _ _, fun s => ?_⟩, ?_⟩
  · rw [hp.1.mem_iff, p2]
  · have hd2 : (({ file := some f.archive } : JarInfo).getRequires E.lim []).1 = .ok d := by rw [ha]; exact hd
    rw [jarReport_eq]
    unfold printRequires symbolText
    simp only [hd2]
    generalize "jar requires:".toList = x
    simp [nameLines_eq, withRes]

/-- C122. If some class cannot be read, only the title is printed. -/
theorem C122_unreadable (ho : a.closed = false) (hr : ¬ JarReadable E.lim a) :
    (∃ e, jarReport E pct { provides := true, info := o } f = ("jar provides:\n".toList, some e)) ∧
    ∃ e, jarReport E pct { requires := true, info := o } f = ("jar requires:\n".toList, some e) := by
  have hm : MadeFor { file := some (.ok a) } a := .inl rfl
  have hp : ∃ e, (({ file := some f.archive } : JarInfo).getProvides E.lim []).1 = .error e := by
    cases h : (({ file := some f.archive } : JarInfo).getProvides E.lim []).1 with
    | error e => exact ⟨e, rfl⟩
    | ok d =>
      rw [ha] at h
      exact absurd ((C65_returns E.lim a _ hm [] (.inl rfl) [] ho).2.1 ⟨d, h⟩) hr
  have hq : ∃ e, (({ file := some f.archive } : JarInfo).getRequires E.lim []).1 = .error e := by
    cases h : (({ file := some f.archive } : JarInfo).getRequires E.lim []).1 with
    | error e => exact ⟨e, rfl⟩
    | ok d =>
      rw [ha] at h
      exact absurd ((C65_returns E.lim a _ hm [] (.inl rfl) [] ho).1.1 ⟨d, h⟩) hr
  have t1 : "jar provides:\n".toList = "jar provides:".toList ++ ['\n'] := by decide +kernel
  have t2 : "jar requires:\n".toList = "jar requires:".toList ++ ['\n'] := by decide +kernel
  obtain ⟨e, hp⟩ := hp
  obtain ⟨e', hq⟩ := hq
  refine ⟨⟨e, ?_⟩, ⟨e', ?_⟩⟩
  · rw [jarReport_eq, t1]
    unfold printProvides
    simp only [hp]
    generalize "jar provides:".toList = x
    simp [withRes]
  · rw [jarReport_eq, t2]
    unfold printRequires
    simp only [hq]
    generalize "jar requires:".toList = x
    simp [withRes]

end

/-! ### JSON -/

theorem askIf_for {α : Type} {lim : Nat} {f : JarFile} (b : Bool) (get : JarInfo → Res α × JarInfo)
    (h : ∀ j, JarInfo.For lim f j →
      (get j).1 = (get { file := some f.archive }).1 ∧ JarInfo.For lim f (get j).2)
    (j : JarInfo) (hj : JarInfo.For lim f j) :
    (askIf b get j).1 =
      (if b then (get { file := some f.archive }).1.map some else .ok none) ∧
    JarInfo.For lim f (askIf b get j).2 := by
  unfold askIf
  cases b with
  | false => exact ⟨rfl, hj⟩
  | true =>
    obtain ⟨h1, h2⟩ := h j hj
    simp only [if_true, ← h1]
    generalize get j = r at h2
    obtain ⟨x, j'⟩ := r
    cases x with
    | error e => exact ⟨rfl, h2⟩
    | ok v => exact ⟨rfl, h2⟩

theorem jsonZip_for (lim : Nat) (f : JarFile) (j : JarInfo) (hj : JarInfo.For lim f j) :
    (jsonZip j).1 = (jsonZip { file := some f.archive }).1 ∧ JarInfo.For lim f (jsonZip j).2 := by
  obtain ⟨h1, h2⟩ := getZipfile_for hj
  obtain ⟨h3, _⟩ := getZipfile_for (JarInfo.for_new lim f)
  unfold jsonZip
  generalize j.getZipfile = r at h1 h2
  generalize ({ file := some f.archive } : JarInfo).getZipfile = r' at h3
  obtain ⟨x, j1⟩ := r
  obtain ⟨x', j2⟩ := r'
  simp only at h1 h3
  subst h1 h3
  cases h : f.archive with
  | error e => exact ⟨rfl, by simpa [h] using h2⟩
  | ok a => exact ⟨rfl, by simpa [h] using h2⟩

/-- The values are those that a new object gives, up to the first exception. -/
theorem jarJson_eq (lim : Nat) (o : JarArgs) (f : JarFile) :
    jarJson lim o f = (do
      let p ← (if o.provides then
        (JarInfo.getProvides lim o.info.apiIgnore { file := some f.archive }).1.map some else .ok none)
      let r ← (if o.requires then
        (JarInfo.getRequires lim o.info.apiIgnore { file := some f.archive }).1.map some else .ok none)
      let z ← (if o.zip then (jsonZip { file := some f.archive }).1.map some else .ok none)
      .ok { provides := p, requires := r, zip := z }) := by
  obtain ⟨p1, p2⟩ := askIf_for (lim := lim) o.provides (JarInfo.getProvides lim o.info.apiIgnore)
    (fun j hj => ⟨(accessors_for hj _).1, (accessors_for hj _).2.1⟩) _ (JarInfo.for_new lim f)
  rw [← p1]
  unfold jarJson
  generalize askIf o.provides (JarInfo.getProvides lim o.info.apiIgnore) { file := some f.archive } = x
    at p2
  obtain ⟨x, j⟩ := x
  cases x with
  | error e => rfl
  | ok p =>
    obtain ⟨r1, r2⟩ := askIf_for (lim := lim) o.requires (JarInfo.getRequires lim o.info.apiIgnore)
      (fun j hj => ⟨(accessors_for hj _).2.2.1, (accessors_for hj _).2.2.2⟩) j p2
    rw [← r1]
    simp only
    generalize askIf o.requires (JarInfo.getRequires lim o.info.apiIgnore) j = x at r2
    obtain ⟨x, j'⟩ := x
    cases x with
    | error e => rfl
    | ok r =>
      obtain ⟨z1, z2⟩ := askIf_for (lim := lim) o.zip jsonZip (jsonZip_for lim f) j' r2
      rw [← z1]
      simp only
      generalize askIf o.zip jsonZip j' = x
      obtain ⟨x, j''⟩ := x
      cases x with
      | error e => rfl
      | ok z => rfl

/-- A value that is asked for or not. -/
theorem asked_ok {α : Type} {b : Bool} {r : Res α} {x : Option α}
    (h : (if b then r.map some else .ok none) = .ok x) :
    (b = true → ∃ v, r = .ok v ∧ x = some v) ∧ (b = false → x = none) := by
  cases b with
  | false =>
    simp only [Bool.false_eq_true, if_false, Except.ok.injEq] at h
    exact ⟨fun h => (nomatch h), fun _ => h.symm⟩
  | true =>
    simp only [if_true] at h
    cases r with
    | error e => cases h
    | ok v =>
      simp only [Except.map, Except.ok.injEq] at h
      exact ⟨fun _ => ⟨v, rfl, h.symm⟩, fun h => (nomatch h)⟩

theorem jarJson_ok {lim : Nat} {o : JarArgs} {f : JarFile} {doc : JarJson} (h : jarJson lim o f = .ok doc) :
    ((o.provides = true → ∃ v, (JarInfo.getProvides lim o.info.apiIgnore { file := some f.archive }).1 =
      .ok v ∧ doc.provides = some v) ∧ (o.provides = false → doc.provides = none)) ∧
    ((o.requires = true → ∃ v, (JarInfo.getRequires lim o.info.apiIgnore { file := some f.archive }).1 =
      .ok v ∧ doc.requires = some v) ∧ (o.requires = false → doc.requires = none)) ∧
    ((o.zip = true → ∃ v, (jsonZip { file := some f.archive }).1 = .ok v ∧ doc.zip = some v) ∧
      (o.zip = false → doc.zip = none)) := by
  rw [jarJson_eq] at h
  generalize hp : (if o.provides then
    (JarInfo.getProvides lim o.info.apiIgnore { file := some f.archive }).1.map some else .ok none) = p at h
  generalize hr : (if o.requires then
    (JarInfo.getRequires lim o.info.apiIgnore { file := some f.archive }).1.map some else .ok none) = r at h
  generalize hz : (if o.zip then (jsonZip { file := some f.archive }).1.map some else .ok none) = z at h
  cases p with
  | error e => cases h
  | ok p =>
    cases r with
    | error e => cases h
    | ok r =>
      cases z with
      | error e => cases h
      | ok z =>
        cases h
        exact ⟨asked_ok hp, asked_ok hr, asked_ok hz⟩

/-- C122. The JSON document has the symbols that the text report lists: where the text has a list of
names, the document has a dictionary with these keys, if it was asked for, and otherwise nothing. -/
theorem C122_json (E : PrintEnv) (pct : Nat → Nat → Str) (o : JarArgs) (f : JarFile) (doc : JarJson)
    (h : jarJson E.lim o f = .ok doc) :
    (o.provides = true → ∃ d names, doc.provides = some d ∧ names.Perm (PyDict.keys d) ∧
      names.Pairwise (· ≤ ·) ∧
      jarReport E pct { provides := true, info := o.info } f = (symbolText "jar provides:" names, none)) ∧
    (o.requires = true → ∃ d names, doc.requires = some d ∧ names.Perm (PyDict.keys d) ∧
      names.Pairwise (· ≤ ·) ∧
      jarReport E pct { requires := true, info := o.info } f = (symbolText "jar requires:" names, none)) ∧
    (o.provides = false → doc.provides = none) ∧ (o.requires = false → doc.requires = none) := by
  obtain ⟨⟨p1, p2⟩, ⟨r1, r2⟩, _⟩ := jarJson_ok h
  have all : ∀ {ig : List Str} {v : SymMap (String × Str)},
      ((JarInfo.getProvides E.lim ig { file := some f.archive }).1 = .ok v → ∃ d,
        (JarInfo.getProvides E.lim [] { file := some f.archive }).1 = .ok d ∧ v = withoutIgnored ig d) ∧
      ((JarInfo.getRequires E.lim ig { file := some f.archive }).1 = .ok v → ∃ d,
        (JarInfo.getRequires E.lim [] { file := some f.archive }).1 = .ok d ∧ v = withoutIgnored ig d) := by
    intro ig v
    cases ha : f.archive with
    | error e => exact ⟨fun h => (nomatch h), fun h => (nomatch h)⟩
    | ok a =>
      have hab : ({ file := some (.ok a) } : JarInfo).About E.lim a := MadeFor.about (.inl rfl) E.lim
      obtain ⟨a1, a2, _⟩ := JarInfo.accessors hab ig
      obtain ⟨b1, b2, _⟩ := JarInfo.accessors hab []
      rw [a1, a2, b1, b2]
      cases hs : jarSymbols E.lim a with
      | error e => exact ⟨fun h => (nomatch h), fun h => (nomatch h)⟩
      | ok s =>
        simp only [Except.map, Except.ok.injEq]
        exact ⟨fun h => ⟨_, rfl, h.symm⟩, fun h => ⟨_, rfl, h.symm⟩⟩
  refine ⟨fun hp => ?_, fun hr => ?_, p2, r2⟩
  · obtain ⟨v, h1, h2⟩ := p1 hp
    obtain ⟨d, h3, rfl⟩ := all.1 h1
    refine ⟨_, printedSymbols sortNames o.info.apiIgnore d, h2, printed_perm _ _, printed_sorted _ _, ?_⟩
    rw [jarReport_eq]
    unfold printProvides symbolText
    simp only [h3]
    generalize "jar provides:".toList = x
    simp [nameLines_eq, withRes]
  · obtain ⟨v, h1, h2⟩ := r1 hr
    obtain ⟨d, h3, rfl⟩ := all.2 h1
    refine ⟨_, printedSymbols sortNames o.info.apiIgnore d, h2, printed_perm _ _, printed_sorted _ _, ?_⟩
    rw [jarReport_eq]
    unfold printRequires symbolText
    simp only [h3]
    generalize "jar requires:".toList = x
    simp [nameLines_eq, withRes]

/-! ### Distributions -/

/-- What distinfo prints. -/
theorem distInfoReport_eq (E : DistEnv) (o : DistArgs) (b : DistBase) :
    distInfoReport E o b = seqOut [
      onlyIf o.provides (printDistSymbols "provides"
        ((distResult E b).map fun s => withoutIgnored o.jar.info.apiIgnore s.prov)),
      onlyIf o.requires (printDistSymbols "requires"
        ((distResult E b).map fun s => withoutIgnored o.jar.info.apiIgnore s.external))] := by
  obtain ⟨_, h2, _, h4⟩ := DistInfo.accessors (DistInfo.new_about E b) o.jar.info.apiIgnore
  unfold distInfoReport
  simp only
  rw [h2]
  cases o.provides with
  | true => simp only [if_true]; rw [(DistInfo.accessors h4 _).1]
  | false =>
    simp only [Bool.false_eq_true, if_false]
    rw [(DistInfo.accessors (DistInfo.new_about E b) _).1]

/-- C122. distinfo lists the symbols that the distribution offers and those that it needs and does
not offer, without those that a pattern matches, in order, each once. -/
theorem C122_dist (E : DistEnv) (o : InfoArgs) (F : Forest) (hF : F.Ok) (hr : DistReadable E F) :
    ∃ provided required,
      SortedNames provided (fun s => ((∃ e a n, DistJar E F e a ∧ JarOffers E.lim a false s n) ∨
        ∃ e c, DistClass E F e c ∧ Offers E.lim c false s) ∧ ¬ Ignored o.apiIgnore s) ∧
      SortedNames required (fun s => (DistNeeds E F s ∧ ¬ DistOffers E F s) ∧ ¬ Ignored o.apiIgnore s) ∧
      ∀ p r, distInfoReport E { provides := p, requires := r, jar := { info := o } } (.dir F) =
        ((if p then symbolText "distribution provides:" provided else []) ++
          (if r then symbolText "distribution requires:" required else []), none) := by
  obtain ⟨dp, hp⟩ := (C66_returns E F hF [] o.apiIgnore).2.2 hr
  obtain ⟨dr, hq⟩ := (C66_returns E F hF [] o.apiIgnore).1.2 hr
  obtain ⟨p1, p2, _⟩ := C66_provides E F hF [] o.apiIgnore dp hp
  obtain ⟨r1, r2, _⟩ := C66_requires_partial E F hF [] o.apiIgnore dr hq
  refine ⟨sortNames (PyDict.keys dp), sortNames (PyDict.keys dr),
    ⟨(sortNames_perm _).nodup_iff.2 p1, sortNames_sorted _, fun s => by rw [mem_sortNames, p2]⟩,
    ⟨(sortNames_perm _).nodup_iff.2 r1, sortNames_sorted _, fun s => by rw [mem_sortNames, r2]⟩, ?_⟩
  obtain ⟨a1, a2, _⟩ := DistInfo.accessors (DistInfo.new_about E (.dir F)) o.apiIgnore
  have hp' : (distResult E (.dir F)).map (fun s => withoutIgnored o.apiIgnore s.prov) = .ok dp := by
    rw [← a2]; exact hp
  have hr' : (distResult E (.dir F)).map (fun s => withoutIgnored o.apiIgnore s.external) = .ok dr := by
    rw [← a1]; exact hq
  have key : ∀ (w t : String) (d : SymMap DistSource),
      "distribution ".toList ++ w.toList ++ ":".toList = t.toList →
      printDistSymbols w (.ok d) = (symbolText t (sortNames (PyDict.keys d)), none) := by
    intro w t d ht
    unfold printDistSymbols symbolText
    rw [ht]
    generalize t.toList = x
    simp [nameLines_eq, withRes]
  intro p r
  rw [distInfoReport_eq]
  simp only [hp', hr']
  rw [key "provides" "distribution provides:" dp (by decide +kernel),
    key "requires" "distribution requires:" dr (by decide +kernel)]
  cases p <;> cases r <;> simp

/-- C122. The JSON document of distinfo has the symbols that the text report lists. -/
theorem C122_dist_json (E : DistEnv) (o : DistArgs) (b : DistBase) (doc : DistInfoJson)
    (h : distInfoJson E o b = .ok doc) :
    doc.provides.isSome = o.provides ∧ doc.requires.isSome = o.requires ∧
    ∃ provided required,
      (∀ d, doc.provides = some d → provided.Perm (PyDict.keys d) ∧ provided.Pairwise (· ≤ ·)) ∧
      (∀ d, doc.requires = some d → required.Perm (PyDict.keys d) ∧ required.Pairwise (· ≤ ·)) ∧
      distInfoReport E o b =
        ((if o.provides then symbolText "distribution provides:" provided else []) ++
          (if o.requires then symbolText "distribution requires:" required else []), none) := by
  obtain ⟨a1, h2, _, h4⟩ := DistInfo.accessors (DistInfo.new_about E b) o.jar.info.apiIgnore
  have key : ∀ (w t : String) (d : SymMap DistSource),
      "distribution ".toList ++ w.toList ++ ":".toList = t.toList →
      printDistSymbols w (.ok d) = (symbolText t (sortNames (PyDict.keys d)), none) := by
    intro w t d ht
    unfold printDistSymbols symbolText
    rw [ht]
    generalize t.toList = x
    simp [nameLines_eq, withRes]
  have k1 := fun d => key "provides" "distribution provides:" d (by decide +kernel)
  have k2 := fun d => key "requires" "distribution requires:" d (by decide +kernel)
  rw [distInfoReport_eq]
  unfold distInfoJson at h
  simp only at h
  rw [h2] at h
  have hreq : ((if o.provides then (DistInfo.getProvides E o.jar.info.apiIgnore { base := b }).2
      else { base := b }).getRequires E o.jar.info.apiIgnore).1 =
      (distResult E b).map fun s => withoutIgnored o.jar.info.apiIgnore s.external := by
    cases o.provides with
    | true => exact (DistInfo.accessors h4 _).1
    | false => exact a1
  rw [hreq] at h
  cases hs : distResult E b with
  | error e =>
    rw [hs] at h
    cases hp : o.provides <;> cases hq : o.requires <;> rw [hp, hq] at h <;>
      simp only [Except.map] at h <;> cases h
    exact ⟨rfl, rfl, [], [], nofun, nofun, rfl⟩
  | ok s =>
    rw [hs] at h
    have sp := fun d : SymMap DistSource => sortNames_perm (PyDict.keys d)
    have so := fun d : SymMap DistSource => sortNames_sorted (PyDict.keys d)
    cases hp : o.provides <;> cases hq : o.requires <;> rw [hp, hq] at h <;>
      simp only [Except.map] at h <;> cases h <;>
      refine ⟨rfl, rfl, sortNames (PyDict.keys (withoutIgnored o.jar.info.apiIgnore s.prov)),
        sortNames (PyDict.keys (withoutIgnored o.jar.info.apiIgnore s.external)), ?_, ?_, ?_⟩ <;>
      simp [Except.map, Except.toOption, k1, k2, sp, so]

example : jarReport listEnv (fun _ _ => []) { provides := true, info := { apiIgnore := ["B*".toList] } }
      symbolFile = ("jar provides:\n  A\n\n".toList, none) ∧
    distInfoReport symbolEnv { provides := true, requires := true } (.dir symbolDist) =
      ("distribution provides:\n  A\n  B\n  C\n\ndistribution requires:\n  D\n\n".toList, none) := by
  decide +kernel

/-! ## C123 -/

section
variable (E : PrintEnv) (pct : Nat → Nat → Str) (o : InfoArgs) (f : JarFile) (a : Archive)
  (ha : f.archive = .ok a)

/-- Uncompressed and compressed size of the files. -/
def fullSize (a : Archive) : Nat := ((fileEntries a).map ZEntry.size).sum
def packedSize (a : Archive) : Nat := ((fileEntries a).map ZEntry.csize).sum

/-- The text of `--zip`. -/
def zipText (a : Archive) : Str :=
  unlines [
    "Contains ".toList ++ Nat.toDigits 10 (fileEntries a).length ++ " files, ".toList ++
      Nat.toDigits 10 (a.entries.length - (fileEntries a).length) ++ " directories".toList,
    "Uncompressed size is ".toList ++ Nat.toDigits 10 (fullSize a),
    "Compressed size is ".toList ++ Nat.toDigits 10 (packedSize a) ++ " (".toList ++
      pct (packedSize a) (fullSize a) ++ "%)".toList,
    []]

/-- C123 in full: for every archive. -/
def C123_full : Prop :=
  ∀ (E : PrintEnv) (pct : Nat → Nat → Str) (o : InfoArgs) (f : JarFile) (a : Archive),
    f.archive = .ok a →
    jarReport E pct { zip := true, info := o } f = (zipText pct a, none) ∧
    jarJson E.lim { zip := true, info := o } f = .ok { zip := some (a.exploded, (fileEntries a).length,
      a.entries.length - (fileEntries a).length, fullSize a, packedSize a) }

include ha in
theorem report_zip : jarReport E pct { zip := true, info := o } f =
    withRes (zipInfo a.entries) fun (files, dirs, uncomp, comp) =>
      seqOut [
        sayLine ("Contains ".toList ++ natText files ++ " files, ".toList ++ natText dirs ++
          " directories".toList),
        sayLine ("Uncompressed size is ".toList ++ natText uncomp),
        sayLine ("Compressed size is ".toList ++ natText comp ++ " (".toList ++ pct comp uncomp ++
          "%)".toList),
        sayLine []] := by
  rw [jarReport_eq]
  unfold printZip
  simp only [onlyIf_true, onlyIf_false, seqOut_cons, seqOut_nil, andThen_nil]
  rw [ha]
  rfl

include ha in
theorem json_zip : jarJson E.lim { zip := true, info := o } f =
    (zipInfo a.entries).map fun x => { zip := some (a.exploded, x) } := by
  rw [jarJson_eq]
  unfold jsonZip
  rw [ha]
  simp only [Bool.false_eq_true, if_false, if_true, JarInfo.getZipfile]
  cases zipInfo a.entries <;> rfl

include ha in
/-- C123 for archives that have data and no entry with the empty name: the text and the document have
the numbers of files and directories and the sizes. Missing: see `C123_empty` and `C123_unnamed`. -/
theorem C123_partial (hn : [] ∉ names a) (hs : fullSize a ≠ 0) :
    jarReport E pct { zip := true, info := o } f = (zipText pct a, none) ∧
    jarJson E.lim { zip := true, info := o } f = .ok { zip := some (a.exploded, (fileEntries a).length,
      a.entries.length - (fileEntries a).length, fullSize a, packedSize a) } := by
  obtain ⟨files, dirs, tc, tu, h1, h2, h3, h4, h5⟩ := C58_partial a hn
  have hz := C58_zip_info a.entries files dirs tc tu h1
  have e1 : tu = fullSize a := h5
  have e2 : tc = packedSize a := h4
  have e3 : dirs = a.entries.length - (fileEntries a).length := by omega
  rw [e1, if_neg hs, e2, e3, h3] at hz
  rw [report_zip E pct o f a ha, json_zip E o f a ha, hz]
  refine ⟨?_, rfl⟩
  unfold withRes zipText
  simp only [natText_eq]
  generalize "Contains ".toList = x1
  generalize " files, ".toList = x2
  generalize " directories".toList = x3
  generalize "Uncompressed size is ".toList = x4
  generalize "Compressed size is ".toList = x5
  generalize " (".toList = x6
  generalize "%)".toList = x7
  simp

include ha in
/-- C123. An archive without any data ends both with a `ZeroDivisionError`. -/
theorem C123_empty (hn : [] ∉ names a) (hs : fullSize a = 0) :
    jarReport E pct { zip := true, info := o } f = ([], some (.other "ZeroDivisionError")) ∧
    jarJson E.lim { zip := true, info := o } f = .error (.other "ZeroDivisionError") := by
  obtain ⟨files, dirs, tc, tu, h1, h2, h3, h4, h5⟩ := C58_partial a hn
  have hz := C58_zip_info a.entries files dirs tc tu h1
  have e1 : tu = fullSize a := h5
  rw [e1, if_pos hs] at hz
  rw [report_zip E pct o f a ha, json_zip E o f a ha, hz]
  exact ⟨rfl, rfl⟩

include ha in
/-- C123. An entry with the empty name ends both with an `IndexError`. -/
theorem C123_unnamed (hn : [] ∈ names a) :
    jarReport E pct { zip := true, info := o } f = ([], some .indexError) ∧
    jarJson E.lim { zip := true, info := o } f = .error .indexError := by
  have hz : zipInfo a.entries = .error .indexError := by
    unfold zipInfo
    rw [C58_empty_name a hn]
  rw [report_zip E pct o f a ha, json_zip E o f a ha, hz]
  exact ⟨rfl, rfl⟩

end

theorem C123_full_fails : ¬ C123_full := by
  intro h
  have h1 := (h listEnv (fun _ _ => []) {} { archive := .ok (zipOf false []), zip := .ok [] } _ rfl).2
  rw [(C123_empty listEnv (fun _ _ => []) {} { archive := .ok (zipOf false []), zip := .ok [] } _ rfl
    (by simp [names, zipOf]) (by decide)).2] at h1
  cases h1

example : jarReport listEnv (fun c u => natText (c * 100 / u)) { zip := true }
      { archive := .ok (zipOf false [("a/".toList, []), ("a/b".toList, [1, 2])]), zip := .ok [] } =
    ("Contains 1 files, 1 directories\nUncompressed size is 2\nCompressed size is 2 (100%)\n\n".toList,
      none) := by decide +kernel

/-! ## C124 -/

/-- C124 in full: the JSON report is written whenever the text report is. -/
def C124_full : Prop :=
  ∀ (E : PrintEnv) (pct : Nat → Nat → Str) (o : JarArgs) (f : JarFile),
    (jarReport E pct o f).2 = none ↔ ∃ doc, jarJson E.lim o f = .ok doc

/-- C124. `--json` drops `--manifest` and `--jar-classes`. -/
theorem C124_dropped (lim : Nat) (o : JarArgs) (f : JarFile) (m c : Bool) :
    jarJson lim { o with manifest := m, classes := c } f = jarJson lim o f := rfl

theorem seqOut_none (os : List Out) : (seqOut os).2 = none ↔ ∀ o ∈ os, o.2 = none := by
  induction os with
  | nil => simp
  | cons o os ih =>
    obtain ⟨t, x⟩ := o
    cases x with
    | none => simp [ih]
    | some e => simp

theorem withRes_none {α : Type} (r : Res α) (k : α → Out) (hk : ∀ a, (k a).2 = none) :
    (withRes r k).2 = none ↔ ∃ a, r = .ok a := by
  cases r with
  | error e => simp [withRes]
  | ok a => simp [withRes, hk]

/-- C124 without `--manifest` and `--jar-classes`. Missing: those two, which the document does not
have, see `C124_dropped`. -/
theorem C124_partial (E : PrintEnv) (pct : Nat → Nat → Str) (o : JarArgs) (f : JarFile)
    (hm : o.manifest = false) (hc : o.classes = false) :
    (jarReport E pct o f).2 = none ↔ ∃ doc, jarJson E.lim o f = .ok doc := by
  have hz : (printZip pct { file := some f.archive }).1.2 = none ↔
      ∃ v, (jsonZip { file := some f.archive }).1 = .ok v := by
    unfold printZip jsonZip
    cases ha : f.archive with
    | error e => simp [JarInfo.getZipfile, withRes]
    | ok a =>
      refine (withRes_none (zipInfo a.entries) _ fun _ => rfl).trans ?_
      simp only [JarInfo.getZipfile]
      cases zipInfo a.entries <;> simp [Except.map]
  have hs : ∀ d : SymMap (String × Str), (seqOut [nameLines
      (printedSymbols sortNames o.info.apiIgnore d), sayLine []]).2 = none := by
    intro d
    simp [nameLines_eq]
  have hall : ∀ ig : List Str,
      ((∃ v, (JarInfo.getProvides E.lim ig { file := some f.archive }).1 = .ok v) ↔
        ∃ v, (JarInfo.getProvides E.lim [] { file := some f.archive }).1 = .ok v) ∧
      ((∃ v, (JarInfo.getRequires E.lim ig { file := some f.archive }).1 = .ok v) ↔
        ∃ v, (JarInfo.getRequires E.lim [] { file := some f.archive }).1 = .ok v) := by
    intro ig
    cases ha : f.archive with
    | error e => exact ⟨⟨fun ⟨_, h⟩ => (nomatch h), fun ⟨_, h⟩ => (nomatch h)⟩,
        ⟨fun ⟨_, h⟩ => (nomatch h), fun ⟨_, h⟩ => (nomatch h)⟩⟩
    | ok a =>
      have hab : ({ file := some (.ok a) } : JarInfo).About E.lim a := MadeFor.about (.inl rfl) E.lim
      obtain ⟨a1, a2, _⟩ := JarInfo.accessors hab ig
      obtain ⟨b1, b2, _⟩ := JarInfo.accessors hab []
      rw [a1, a2, b1, b2]
      cases jarSymbols E.lim a <;> simp [Except.map]
  have hp : (printProvides E o.info.apiIgnore { file := some f.archive }).1.2 = none ↔
      ∃ v, (JarInfo.getProvides E.lim o.info.apiIgnore { file := some f.archive }).1 = .ok v := by
    rw [(hall _).1]
    unfold printProvides
    simp only [seqOut_cons, seqOut_nil, sayLine_eq, andThen_none, andThen_nil]
    exact withRes_none _ _ hs
  have hr : (printRequires E o.info.apiIgnore { file := some f.archive }).1.2 = none ↔
      ∃ v, (JarInfo.getRequires E.lim o.info.apiIgnore { file := some f.archive }).1 = .ok v := by
    rw [(hall _).2]
    unfold printRequires
    simp only [seqOut_cons, seqOut_nil, sayLine_eq, andThen_none, andThen_nil]
    exact withRes_none _ _ hs
  have ask : ∀ {α : Type} (b : Bool) (out : Out) (r : Res α), (out.2 = none ↔ ∃ v, r = .ok v) →
      ((onlyIf b out).2 = none ↔ ∃ x, (if b then r.map some else .ok none) = .ok x) := by
    intro α b out r h
    cases b with
    | false => simp
    | true =>
      simp only [onlyIf_true, if_true, h]
      cases r <;> simp [Except.map]
  have hp := ask o.provides _ _ hp
  have hr := ask o.requires _ _ hr
  have hz := ask o.zip _ _ hz
  rw [jarReport_eq, seqOut_none, jarJson_eq, hm, hc]
  simp only [List.mem_cons, List.not_mem_nil, or_false, forall_eq_or_imp, forall_eq, onlyIf_false, hp, hr,
    hz, and_true, true_and]
  generalize (if o.provides then
    (JarInfo.getProvides E.lim o.info.apiIgnore { file := some f.archive }).1.map some else .ok none) = p
  generalize (if o.requires then
    (JarInfo.getRequires E.lim o.info.apiIgnore { file := some f.archive }).1.map some else .ok none) = r
  generalize (if o.zip then (jsonZip { file := some f.archive }).1.map some else .ok none) = z
  constructor
  · rintro ⟨⟨z, rfl⟩, ⟨p, rfl⟩, ⟨r, rfl⟩⟩
    exact ⟨_, rfl⟩
  · rintro ⟨doc, h⟩
    cases p with
    | error e => cases h
    | ok p =>
      cases r with
      | error e => cases h
      | ok r =>
        cases z with
        | error e => cases h
        | ok z => exact ⟨⟨_, rfl⟩, ⟨_, rfl⟩, ⟨_, rfl⟩⟩

theorem C124_full_fails : ¬ C124_full := by
  intro h
  have h1 := (h listEnv (fun _ _ => []) { manifest := true } { archive := .error .keyError, zip := .ok [] }).2
    ⟨{}, rfl⟩
  revert h1
  decide +kernel

/-- C124. Several files give several documents, up to the first that fails. -/
theorem C124_files (lim : Nat) (o : JarArgs) (before after : List JarFile) (f : JarFile)
    (docs : List JarJson) (h : before.map (jarJson lim o.norm) = docs.map .ok) :
    jarinfoJson lim o before = (docs, none) ∧
    ∀ e, jarJson lim o.norm f = .error e → jarinfoJson lim o (before ++ f :: after) = (docs, some e) := by
  unfold jarinfoJson
  induction before generalizing docs with
  | nil =>
    cases docs with
    | nil => exact ⟨rfl, fun e he => by simp [jarJsonLoop, he]⟩
    | cons d docs => simp at h
  | cons b before ih =>
    cases docs with
    | nil => simp at h
    | cons d docs =>
      simp only [List.map_cons, List.cons.injEq] at h
      obtain ⟨h1, h2⟩ := ih docs h.2
      refine ⟨by simp [jarJsonLoop, h.1, h1], fun e he => ?_⟩
      simp [jarJsonLoop, h.1, h2 e he]

/-- C124. distinfo takes the options of jarinfo and classinfo, and does nothing with them, but for the
patterns. -/
theorem C124_dist (E : DistEnv) (o : DistArgs) (b : DistBase) (j : JarArgs)
    (h : j.info.apiIgnore = o.jar.info.apiIgnore) :
    distInfoReport E { o with jar := j } b = distInfoReport E o b ∧
    distInfoJson E { o with jar := j } b = distInfoJson E o b := by
  unfold distInfoReport distInfoJson
  simp only [h]
  exact ⟨trivial, trivial⟩

example : jarJson 9 { requires := true, manifest := true } symbolFile =
    .ok { requires := some [(['C'], [("class.requires", "B.class".toList)])] } := by decide +kernel

end Javatools
