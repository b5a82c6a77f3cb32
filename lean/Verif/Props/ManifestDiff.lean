import Verif.Model.ManifestDiff
import Verif.Props.Change
import Verif.Props.Zip
import Verif.Proofs.Dict
/-
C68: the comparison of manifests. C70: the names given to `--ignore-manifest-key`.
-/
namespace Javatools

namespace Change
variable {O P : Type}

/-- Checking the children when each check succeeds. -/
theorem checkAll_map (cs : List (Change O)) (g : Change O → Change O)
    (h : ∀ c ∈ cs, check c = .ok (g c)) (b : Bool) :
    checkAll cs b = .ok (cs.map g, b || (cs.map g).any isChange) := by
  induction cs generalizing b with
  | nil => simp [checkAll]
  | cons c cs ih =>
    rw [checkAll, h c (by simp)]
    simp only [List.map_cons, List.any_cons]
    rw [ih (fun x hx => h x (by simp [hx]))]
    simp [Bool.or_assoc]

end Change

/-! ### C68 -/

/-- The attribute `k` is missing from one of the sections only, or has different values. -/
def DiffersAt (a b : Section) (k : Str) : Prop := PyDict.get? a k ≠ PyDict.get? b k

/-- One line of the comparison of two manifests. -/
inductive SectionLine where
  | main
  | shared (name : Str) (a b : Section)
  | removed (name : Str) (a : Section)
  | added (name : Str) (b : Section)
  deriving DecidableEq

/-- The lines the comparison should have: the main section, and one for each name of a section. -/
def Expected (l r : Manifest) : SectionLine → Prop
  | .main => True
  | .shared s a b => PyDict.get? l.subs s = some a ∧ PyDict.get? r.subs s = some b
  | .removed s a => PyDict.get? l.subs s = some a ∧ PyDict.get? r.subs s = none
  | .added s b => PyDict.get? l.subs s = none ∧ PyDict.get? r.subs s = some b

/-- Whether the line is a change. Attributes are kept in order, and the order counts. -/
def LineChanged (l r : Manifest) : SectionLine → Prop
  | .main => l.main ≠ r.main
  | .shared _ a b => a ≠ b
  | .removed _ _ => True
  | .added _ _ => True

/-- The class that represents the line. -/
def lineClass : SectionLine → String
  | .main => "ManifestMainChange"
  | .shared .. => "ManifestSectionChange"
  | .removed .. => "ManifestSectionRemoved"
  | .added .. => "ManifestSectionAdded"

/-- Keys to ignore are given, and every attribute that differs has one of them as its name. -/
def KeysCover (keys : List Str) (a b : Section) : Prop :=
  keys ≠ [] ∧ ∀ k, DiffersAt a b k → k ∈ keys

/-- Whether the line should be ignored. -/
def LineIgnored (l r : Manifest) (o : DiffOpts) : SectionLine → Prop
  | .main => KeysCover o.manifestKeys l.main r.main
  | .shared _ a b =>
    o.attr "ignore_manifest_subsections" = true ∨ KeysCover o.manifestKeys a b
  | .removed _ _ => o.attr "ignore_manifest_subsections" = true
  | .added _ _ => o.attr "ignore_manifest_subsections" = true

/-- The dictionaries of a manifest have distinct keys. -/
structure Manifest.Lawful (m : Manifest) : Prop where
  main : m.main.keys.Nodup
  subs : m.subs.keys.Nodup
  sections : ∀ s a, PyDict.get? m.subs s = some a → a.keys.Nodup

theorem mem_dict_iff {κ ν : Type} [DecidableEq κ] {d : PyDict κ ν} (hd : d.keys.Nodup) (k : κ)
    (v : ν) : (k, v) ∈ d ↔ d.get? k = some v :=
  ⟨PyDict.get?_of_mem_nodup hd, PyDict.mem_of_get?⟩

theorem mem_changedKeys (a b : Section) (ha : a.keys.Nodup) (hb : b.keys.Nodup) (k : Str) :
    k ∈ changedKeys a b ↔ DiffersAt a b k := by
  simp only [changedKeys, List.mem_map, List.mem_append, List.mem_filter, decide_eq_true_eq,
    Prod.exists, exists_and_right, exists_eq_right, mem_dict_iff ha, mem_dict_iff hb, DiffersAt]
  constructor
  · rintro ⟨v, ⟨h1, h2⟩ | ⟨h1, h2⟩⟩ he
    · exact h2 (he ▸ h1)
    · exact h2 (he ▸ h1)
  · intro h
    cases h1 : PyDict.get? a k with
    | some v => exact ⟨v, .inl ⟨rfl, fun h2 => h (by rw [h1, h2])⟩⟩
    | none =>
      cases h2 : PyDict.get? b k with
      | some v => exact ⟨v, .inr ⟨rfl, by simp⟩⟩
      | none => exact absurd (by rw [h1, h2]) h

theorem keysIgnored_iff (keys : List Str) (a b : Section) (ha : a.keys.Nodup) (hb : b.keys.Nodup) :
    keysIgnored keys a b = true ↔ KeysCover keys a b := by
  unfold keysIgnored KeysCover
  by_cases h : keys = []
  · simp [h]
  · have : keys.isEmpty = false := by simpa using h
    simp [this, h, mem_changedKeys a b ha hb]

/-- The change object of a line, before and after `check`. -/
def lineChange (text : Section → Str) (l r : Manifest) : SectionLine → Change DiffOpts
  | .main => mainChange text l.main r.main
  | .shared _ a b => sectionChange text a b
  | .removed _ a => sectionRemoved text a
  | .added _ b => sectionAdded text b

/-- What one checked object of the comparison shows. -/
structure Shows (l r : Manifest) (c : Change DiffOpts) (t : SectionLine) : Prop where
  cls : c.hdr.typeName = lineClass t
  changed : c.isChange = true ↔ LineChanged l r t
  ignored : ∀ o, c.isIgnored o = true ↔ LineIgnored l r o t
  childless : c.collect = []

/-- Checking a comparison whose texts do not raise. -/
theorem check_leaf {O : Type} (h : Hdr O) (label : Str) (d : Bool) (x y : Str) (b : Bool)
    (t : Option Str) :
    ∃ t', Change.check (.leaf h (some (checkImpl label (.ok d) (.ok x) (.ok y))) b t) =
      .ok (.leaf h (some (checkImpl label (.ok d) (.ok x) (.ok y))) d t') := by
  cases d <;> exact ⟨_, rfl⟩

theorem check_leaf_eq {O : Type} {h : Hdr O} {label : Str} {d : Bool} {x y : Str} {b : Bool}
    {t : Option Str} {c : Change O}
    (hc : Change.check (.leaf h (some (checkImpl label (.ok d) (.ok x) (.ok y))) b t) = .ok c) :
    c.hdr = h ∧ c.isChange = (decide (h.kind ≠ .plain) || d) ∧
      ∀ f, h.describe = some f → c.getDescription = f c.isChange := by
  obtain ⟨t', h'⟩ := check_leaf h label d x y b t
  rw [h', Except.ok.injEq] at hc
  subst hc
  refine ⟨rfl, ?_, fun f hf => ?_⟩
  · simp only [Change.isChange]
    cases h.kind <;> simp
  · simp only [Change.getDescription, hf]

theorem line_check (text : Section → Str) (l r : Manifest) (hl : l.Lawful) (hr : r.Lawful)
    (t : SectionLine) (ht : Expected l r t) :
    ∃ c, (lineChange text l r t).check = .ok c ∧ Shows l r c t := by
  cases t with
  | main =>
    obtain ⟨t', h⟩ := check_leaf _ _ _ _ _ _ _
    refine ⟨_, h, rfl, by simp [Change.isChange, LineChanged], fun o => ?_, rfl⟩
    simp only [Change.isIgnored, LineIgnored, keysIgnored_iff _ _ _ hl.main hr.main]
  | shared s a b =>
    have ha := hl.sections s a ht.1
    have hb := hr.sections s b ht.2
    obtain ⟨t', h⟩ := check_leaf _ _ _ _ _ _ _
    refine ⟨_, h, rfl, by simp [Change.isChange, LineChanged], fun o => ?_, rfl⟩
    simp only [Change.isIgnored, LineIgnored, ← keysIgnored_iff _ _ _ ha hb]
    by_cases h2 : o.attr "ignore_manifest_subsections" = true <;> simp [h2]
  | removed s a =>
    obtain ⟨t', h⟩ := check_leaf _ _ _ _ _ _ _
    exact ⟨_, h, rfl, by simp [Change.isChange, LineChanged],
      fun o => by simp only [Change.isIgnored, LineIgnored], rfl⟩
  | added s a =>
    obtain ⟨t', h⟩ := check_leaf _ _ _ _ _ _ _
    exact ⟨_, h, rfl, by simp [Change.isChange, LineChanged],
      fun o => by simp only [Change.isIgnored, LineIgnored], rfl⟩

/-- The lines in the order of the generator. -/
def lineList (order : List Str → List Str) (l r : Manifest) : List SectionLine :=
  .main ::
    ((order (l.subs.keys.filter fun s => s ∈ r.subs.keys)).map fun s =>
      .shared s (subSection l s) (subSection r s)) ++
    ((order (l.subs.keys.filter fun s => s ∉ r.subs.keys)).map fun s => .removed s (subSection l s)) ++
    ((order (r.subs.keys.filter fun s => s ∉ l.subs.keys)).map fun s => .added s (subSection r s))

theorem children_lines (order : List Str → List Str) (text : Section → Str) (l r : Manifest) :
    manifestChildren order text l r = (lineList order l r).map (lineChange text l r) := by
  simp [manifestChildren, lineList, lineChange, Function.comp_def]

theorem subSection_iff (m : Manifest) (s : Str) (a : Section) (h : s ∈ m.subs.keys) :
    subSection m s = a ↔ PyDict.get? m.subs s = some a := by
  have := (PyDict.get?_isSome_iff m.subs s).2 h
  obtain ⟨b, hb⟩ := Option.isSome_iff_exists.1 this
  simp [subSection, hb]

theorem mem_keys_of_get? {κ ν : Type} [DecidableEq κ] {d : PyDict κ ν} {k : κ} {v : ν}
    (h : d.get? k = some v) : k ∈ d.keys := (PyDict.get?_isSome_iff d k).1 (by simp [h])

theorem mem_lineList {order : List Str → List Str} (ho : IsSetOrder order) (l r : Manifest)
    (t : SectionLine) : t ∈ lineList order l r ↔ Expected l r t := by
  simp only [lineList, List.cons_append, List.mem_cons, List.mem_append, List.mem_map, (ho _).2,
    List.mem_filter, decide_eq_true_eq]
  cases t with
  | main => simp [Expected]
  | shared s a b =>
    simp only [reduceCtorEq, SectionLine.shared.injEq, false_or, and_false, exists_false, or_false,
      Expected]
    constructor
    · rintro ⟨s', ⟨h1, h2⟩, rfl, h3, h4⟩
      exact ⟨(subSection_iff l s' a h1).1 h3, (subSection_iff r s' b h2).1 h4⟩
    · rintro ⟨h1, h2⟩
      have hl := mem_keys_of_get? h1
      have hr := mem_keys_of_get? h2
      exact ⟨s, ⟨hl, hr⟩, rfl, (subSection_iff l s a hl).2 h1, (subSection_iff r s b hr).2 h2⟩
  | removed s a =>
    simp only [reduceCtorEq, SectionLine.removed.injEq, false_or, and_false, exists_false, or_false,
      Expected, PyDict.get?_eq_none_iff]
    constructor
    · rintro ⟨s', ⟨h1, h2⟩, rfl, h3⟩
      exact ⟨(subSection_iff l s' a h1).1 h3, h2⟩
    · rintro ⟨h1, h2⟩
      have hl := mem_keys_of_get? h1
      exact ⟨s, ⟨hl, h2⟩, rfl, (subSection_iff l s a hl).2 h1⟩
  | added s b =>
    simp only [reduceCtorEq, SectionLine.added.injEq, false_or, and_false, exists_false, or_false,
      Expected, PyDict.get?_eq_none_iff]
    constructor
    · rintro ⟨s', ⟨h1, h2⟩, rfl, h3⟩
      exact ⟨h2, (subSection_iff r s' b h1).1 h3⟩
    · rintro ⟨h1, h2⟩
      have hr := mem_keys_of_get? h2
      exact ⟨s, ⟨hr, h1⟩, rfl, (subSection_iff r s b hr).2 h2⟩

theorem nodup_map_of_inj {α β : Type} {f : α → β} {l : List α} (h : l.Nodup)
    (hf : ∀ x y, f x = f y → x = y) : (l.map f).Nodup := by
  rw [List.nodup_iff_pairwise_ne] at *
  exact List.pairwise_map.2 (h.imp fun hn he => hn (hf _ _ he))

theorem lineList_nodup {order : List Str → List Str} (ho : IsSetOrder order) (l r : Manifest) :
    (lineList order l r).Nodup := by
  unfold lineList
  rw [List.nodup_append, List.nodup_append, List.nodup_cons]
  refine ⟨⟨⟨by simp, nodup_map_of_inj (ho _).1 (by simp)⟩, nodup_map_of_inj (ho _).1 (by simp),
    ?_⟩, nodup_map_of_inj (ho _).1 (by simp), ?_⟩
  · intro x hx y hy
    obtain ⟨s, _, rfl⟩ := List.mem_map.1 hy
    rcases List.mem_cons.1 hx with rfl | hx
    · simp
    · obtain ⟨s', _, rfl⟩ := List.mem_map.1 hx
      simp
  · intro x hx y hy
    obtain ⟨s, _, rfl⟩ := List.mem_map.1 hy
    rcases List.mem_append.1 hx with hx | hx
    · rcases List.mem_cons.1 hx with rfl | hx
      · simp
      · obtain ⟨s', _, rfl⟩ := List.mem_map.1 hx
        simp
    · obtain ⟨s', _, rfl⟩ := List.mem_map.1 hx
      simp

theorem lines_check (order : List Str → List Str) (text : Section → Str) (l r : Manifest)
    (ho : IsSetOrder order) (hl : l.Lawful) (hr : r.Lawful) :
    ∃ (ts : List SectionLine) (f : SectionLine → Change DiffOpts), ts.Nodup ∧
      (∀ t, t ∈ ts ↔ Expected l r t) ∧ (∀ t ∈ ts, Shows l r (f t) t) ∧
      Change.checkAll (manifestChildren order text l r) false =
        .ok (ts.map f, ts.any fun t => (f t).isChange) := by
  have hex : ∀ t, ∃ c, Expected l r t →
      (lineChange text l r t).check = .ok c ∧ Shows l r c t := fun t => by
    by_cases ht : Expected l r t
    · obtain ⟨c, hc⟩ := line_check text l r hl hr t ht
      exact ⟨c, fun _ => hc⟩
    · exact ⟨lineChange text l r t, fun h => absurd h ht⟩
  obtain ⟨f, hf⟩ := Classical.axiomOfChoice hex
  refine ⟨lineList order l r, f, lineList_nodup ho l r, mem_lineList ho l r,
    fun t ht => (hf t ((mem_lineList ho l r t).1 ht)).2, ?_⟩
  rw [children_lines]
  have : ∀ (ts : List SectionLine) (b : Bool), (∀ t ∈ ts, Expected l r t) →
      Change.checkAll (ts.map (lineChange text l r)) b =
        .ok (ts.map f, b || ts.any fun t => (f t).isChange) := by
    intro ts
    induction ts with
    | nil => intro b _; simp [Change.checkAll]
    | cons t ts ih =>
      intro b h
      rw [List.map_cons, Change.checkAll, (hf t (h t (by simp))).1]
      simp only [List.map_cons, List.any_cons]
      rw [ih _ fun x hx => h x (by simp [hx])]
      simp [Bool.or_assoc]
  rw [this _ _ fun t ht => (mem_lineList ho l r t).1 ht]
  simp

/-- C68: checking the comparison of two manifests succeeds, and its children are exactly one
object for the main section and one for each name of a section, of the right class, changed and
ignored exactly when they should be. -/
theorem C68_report (order : List Str → List Str) (text : Section → Str) (l r : Manifest)
    (ho : IsSetOrder order) (hl : l.Lawful) (hr : r.Lawful) :
    ∃ c, (manifestChange order text l r).check = .ok c ∧
      c.hdr.typeName = "ManifestChange" ∧
      (c.isChange = true ↔
        l.main ≠ r.main ∨ ∃ s, PyDict.get? l.subs s ≠ PyDict.get? r.subs s) ∧
      ∃ (ts : List SectionLine) (f : SectionLine → Change DiffOpts), c.collect = ts.map f ∧
        ts.Nodup ∧ (∀ t, t ∈ ts ↔ Expected l r t) ∧ ∀ t ∈ ts, Shows l r (f t) t := by
  obtain ⟨ts, f, hn, hm, hs, hc⟩ := lines_check order text l r ho hl hr
  refine ⟨.super _ none (ts.any fun t => (f t).isChange) none (ts.map f),
    by simp only [manifestChange, Change.check, hc]; rfl, rfl, ?_, ts, f, rfl, hn, hm, hs⟩
  show (ts.any fun t => (f t).isChange) = true ↔ _
  rw [List.any_eq_true]
  constructor
  · rintro ⟨t, ht, hch⟩
    have h1 := (hs t ht).changed.1 hch
    have h2 := (hm t).1 ht
    cases t with
    | main => exact .inl h1
    | shared s a b =>
      exact .inr ⟨s, by rw [h2.1, h2.2]; intro he; exact h1 (Option.some.inj he)⟩
    | removed s a => exact .inr ⟨s, by rw [h2.1, h2.2]; simp⟩
    | added s a => exact .inr ⟨s, by rw [h2.1, h2.2]; simp⟩
  · rintro (h | ⟨s, h⟩)
    · have : Expected l r .main := trivial
      exact ⟨.main, (hm _).2 this, (hs _ ((hm _).2 this)).changed.2 h⟩
    · cases h1 : PyDict.get? l.subs s with
      | none =>
        cases h2 : PyDict.get? r.subs s with
        | none => exact absurd (by rw [h1, h2]) h
        | some b =>
          have := (hm (.added s b)).2 ⟨h1, h2⟩
          exact ⟨_, this, (hs _ this).changed.2 trivial⟩
      | some a =>
        cases h2 : PyDict.get? r.subs s with
        | none =>
          have := (hm (.removed s a)).2 ⟨h1, h2⟩
          exact ⟨_, this, (hs _ this).changed.2 trivial⟩
        | some b =>
          have := (hm (.shared s a b)).2 ⟨h1, h2⟩
          exact ⟨_, this, (hs _ this).changed.2 (fun he => h (by rw [h1, h2, he]))⟩

/-- C68: the whole comparison is ignored exactly when manifests are ignored, or something changed
and every changed section is ignored. -/
theorem C68_ignored (order : List Str → List Str) (text : Section → Str) (l r : Manifest)
    (ho : IsSetOrder order) (hl : l.Lawful) (hr : r.Lawful) (c : Change DiffOpts)
    (h : (manifestChange order text l r).check = .ok c) (o : DiffOpts) :
    c.isIgnored o = true ↔ o.attr "ignore_manifest" = true ∨
      (c.isChange = true ∧ ∀ t, Expected l r t → LineChanged l r t → LineIgnored l r o t) := by
  obtain ⟨ts, f, hn, hm, hs, hc⟩ := lines_check order text l r ho hl hr
  simp only [manifestChange, Change.check, hc, Except.ok.injEq] at h
  subst h
  have hne : (ts.map f).isEmpty = false := by
    have := (hm .main).2 trivial
    cases ts with
    | nil => simp at this
    | cons a b => rfl
  have hall : Change.allIgnored o (ts.map f) = true ↔
      ∀ t, Expected l r t → LineChanged l r t → LineIgnored l r o t := by
    rw [Change.allIgnored_iff]
    simp only [List.mem_map, forall_exists_index, and_imp, forall_apply_eq_imp_iff₂]
    constructor
    · intro h t ht hch
      have := (hm t).2 ht
      exact ((hs t this).ignored o).1 (h t this ((hs t this).changed.2 hch))
    · intro h t ht hch
      exact ((hs t ht).ignored o).2 (h t ((hm t).1 ht) ((hs t ht).changed.1 hch))
  rw [← hall]
  generalize (ts.any fun t => (f t).isChange) = b
  cases b <;> simp [Change.isIgnored, Change.isChange, hne]

/-- The same comparison for signature files, with its own option. -/
theorem C68_signature (order : List Str → List Str) (text : Section → Str) (l r : Manifest) :
    (signatureManifestChange order text l r).collect = (manifestChange order text l r).collect ∧
    (∀ c, (manifestChange order text l r).check = .ok c → ∃ d,
      (signatureManifestChange order text l r).check = .ok d ∧ d.collect = c.collect ∧
      d.isChange = c.isChange ∧
      ∀ o, d.isIgnored o = (o.attr "ignore_jar_signature" ||
        (c.isChange && (!c.collect.isEmpty && Change.allIgnored o c.collect)))) := by
  refine ⟨rfl, fun c hc => ?_⟩
  simp only [manifestChange, Change.check] at hc
  cases hr : Change.checkAll (manifestChildren order text l r) false with
  | error e => rw [hr] at hc; simp at hc
  | ok p =>
    obtain ⟨cs, b⟩ := p
    rw [hr] at hc
    simp only [Except.ok.injEq] at hc
    subst hc
    refine ⟨.super (signatureManifestChange order text l r).hdr none b none cs,
      by simp only [signatureManifestChange, Change.check, hr]; rfl,
      rfl, rfl, fun o => ?_⟩
    cases b <;> cases cs <;>
      simp [signatureManifestChange, Change.hdr, Change.isIgnored, Change.isChange, Change.collect]

/-! The dictionaries of a manifest that was read are lawful, and its sections are filed under
their names. -/

/-- Every section is filed under the value of its `Name`. -/
def Manifest.Keyed (m : Manifest) : Prop :=
  ∀ s a, PyDict.get? m.subs s = some a → PyDict.get? a kName = some s

theorem loadItems_nodup {s t : Section} {items : List RawItem} (hn : s.keys.Nodup)
    (h : loadItems s items = .ok t) : t.keys.Nodup := by
  induction items generalizing s with
  | nil => simp only [loadItems, Except.ok.injEq] at h; exact h ▸ hn
  | cons i items ih =>
    obtain ⟨k, v⟩ := i
    simp only [loadItems, setItem] at h
    by_cases hk : k.length > 68
    · simp [hk] at h
    · simp only [hk, if_false] at h
      exact ih (PyDict.nodup_keys_set _ _ _ hn) h

theorem loadItems_named {s t : Section} {items : List RawItem} (hn : (PyDict.get? s kName).isSome)
    (h : loadItems s items = .ok t) : (PyDict.get? t kName).isSome := by
  induction items generalizing s with
  | nil => simp only [loadItems, Except.ok.injEq] at h; exact h ▸ hn
  | cons i items ih =>
    obtain ⟨k, v⟩ := i
    simp only [loadItems, setItem] at h
    by_cases hk : k.length > 68
    · simp [hk] at h
    · simp only [hk, if_false] at h
      refine ih ?_ h
      rw [PyDict.get?_set]
      split <;> simp [hn]

theorem loadSubs_lawful {subs subs' : PyDict Str Section} {secs : List (List RawItem)}
    (h : loadSubs subs secs = .ok subs') (hn : subs.keys.Nodup)
    (hs : ∀ s a, PyDict.get? subs s = some a → a.keys.Nodup ∧ PyDict.get? a kName = some s) :
    subs'.keys.Nodup ∧
      ∀ s a, PyDict.get? subs' s = some a → a.keys.Nodup ∧ PyDict.get? a kName = some s := by
  induction secs generalizing subs with
  | nil => simp only [loadSubs, Except.ok.injEq] at h; exact h ▸ ⟨hn, hs⟩
  | cons items secs ih =>
    simp only [loadSubs] at h
    cases hl : loadItems (newSection "None".toList) items with
    | error e => rw [hl] at h; simp at h
    | ok t =>
      rw [hl] at h
      simp only at h
      have h1 := loadItems_nodup (s := newSection "None".toList) (by simp [newSection, PyDict.keys]) hl
      have h2 := loadItems_named (s := newSection "None".toList)
        (by simp [newSection, PyDict.get?]) hl
      refine ih h (PyDict.nodup_keys_set _ _ _ hn) fun s a ha => ?_
      rw [PyDict.get?_set] at ha
      split at ha
      · rename_i he
        cases ha
        obtain ⟨v, hv⟩ := Option.isSome_iff_exists.1 h2
        refine ⟨h1, ?_⟩
        simp only [primary, hv, Option.getD_some] at he
        rw [hv, he]
      · exact hs s a ha

/-- C68: manifests that were read fulfil the conditions of the other theorems. -/
theorem C68_parsed (data : Bytes) (m : Manifest) (h : emptyManifest.parse data = .ok m) :
    m.Lawful ∧ m.Keyed := by
  unfold Manifest.parse at h
  simp only at h
  split at h
  · simp at h
  · simp at h
  · split at h
    · simp at h
    · rename_i main hmain
      split at h
      · simp at h
      · rename_i subs hsubs
        split at h
        · simp at h
        · simp only [Except.ok.injEq] at h
          subst h
          have := loadSubs_lawful hsubs (by simp [emptyManifest, Manifest.new, PyDict.keys])
            (by simp [emptyManifest, Manifest.new, PyDict.get?])
          refine ⟨⟨loadItems_nodup ?_ hmain, this.1, fun s a ha => (this.2 s a ha).1⟩,
            fun s a ha => (this.2 s a ha).2⟩
          simp [emptyManifest, Manifest.new, PyDict.keys]

/-- The text that a line should have. -/
def lineText (l r : Manifest) : SectionLine → Str
  | .main => if l.main = r.main then "Manifest Main Section is unchanged".toList
      else "Manifest Main Section has changed".toList
  | .shared s a b => (if a = b then "Manifest Subsection Unchanged: ".toList
      else "Manifest Subsection Changed: ".toList) ++ s
  | .removed s _ => "Manifest Subsection Removed: ".toList ++ s
  | .added s _ => "Manifest Subsection Added: ".toList ++ s

theorem litMain (b : Bool) : "Manifest Main Section".toList ++
    (if b then " has changed".toList else " is unchanged".toList) =
    if b then "Manifest Main Section has changed".toList
    else "Manifest Main Section is unchanged".toList := by
  cases b <;> decide +kernel

theorem litShared (b : Bool) : "Manifest Subsection".toList ++
    (if b then " Changed: ".toList else " Unchanged: ".toList) =
    if b then "Manifest Subsection Changed: ".toList
    else "Manifest Subsection Unchanged: ".toList := by
  cases b <;> decide +kernel

theorem main_text {text : Section → Str} {l r : Section} {c : Change DiffOpts}
    (h : (mainChange text l r).check = .ok c) : c.getDescription =
      if l = r then "Manifest Main Section is unchanged".toList
      else "Manifest Main Section has changed".toList := by
  unfold mainChange at h
  obtain ⟨_, h2, h3⟩ := check_leaf_eq h
  refine (h3 _ rfl).trans ?_
  rw [h2]
  refine (litMain _).trans ?_
  generalize "Manifest Main Section is unchanged".toList = x
  generalize "Manifest Main Section has changed".toList = y
  by_cases he : l = r <;> simp [he]

theorem shared_text {text : Section → Str} {a b : Section} {c : Change DiffOpts}
    (h : (sectionChange text a b).check = .ok c) : c.getDescription =
      (if a = b then "Manifest Subsection Unchanged: ".toList
       else "Manifest Subsection Changed: ".toList) ++ primary (if a.isEmpty then b else a) := by
  unfold sectionChange at h
  obtain ⟨_, h2, h3⟩ := check_leaf_eq h
  refine (h3 _ rfl).trans ?_
  rw [h2]
  refine congrArg (· ++ _) ?_
  refine (litShared _).trans ?_
  generalize "Manifest Subsection Unchanged: ".toList = x
  generalize "Manifest Subsection Changed: ".toList = y
  by_cases he : a = b <;> simp [he]

/-- C68: the descriptions name the section. -/
theorem C68_text (text : Section → Str) (l r : Manifest) (hl : l.Keyed) (hr : r.Keyed)
    (t : SectionLine) (ht : Expected l r t) (c : Change DiffOpts)
    (h : (lineChange text l r t).check = .ok c) : c.getDescription = lineText l r t := by
  cases t with
  | main => exact main_text h
  | shared s a b =>
    have ha := hl s a ht.1
    have hne : a.isEmpty = false := by
      cases a with
      | nil => simp [PyDict.get?] at ha
      | cons x y => rfl
    have hp : primary a = s := by simp [primary, ha]
    have := shared_text h
    rw [show (if a.isEmpty then b else a) = a by simp [hne], hp] at this
    exact this
  | removed s a =>
    have hp : primary a = s := by simp [primary, hl s a ht.1]
    obtain ⟨_, h2, h3⟩ := check_leaf_eq h
    refine (h3 _ rfl).trans ?_
    rw [hp]
    rfl
  | added s b =>
    have hp : primary b = s := by simp [primary, hr s b ht.2]
    obtain ⟨_, h2, h3⟩ := check_leaf_eq h
    refine (h3 _ rfl).trans ?_
    rw [hp]
    rfl

/-- C68: two sections with the same attributes in another order are reported as changed, and are
ignored as soon as any key is to be ignored. -/
theorem C68_reordered (text : Section → Str) (a b : Section) (ha : a.keys.Nodup) (hb : b.keys.Nodup)
    (hsame : ∀ k, PyDict.get? a k = PyDict.get? b k) (hne : a ≠ b) (o : DiffOpts) :
    ∃ c, (sectionChange text a b).check = .ok c ∧ c.isChange = true ∧
      (o.attr "ignore_manifest_subsections" = false →
        (c.isIgnored o = true ↔ o.manifestKeys ≠ [])) := by
  obtain ⟨t', h'⟩ := check_leaf _ _ _ _ _ _ _
  refine ⟨_, h', by simp [Change.isChange, hne], fun hsub => ?_⟩
  simp only [Change.isIgnored, hsub]
  simp only [Bool.false_eq_true, if_false, keysIgnored_iff _ _ _ ha hb, KeysCover, DiffersAt]
  exact ⟨fun h => h.1, fun h => ⟨h, fun k hk => absurd (hsame k) hk⟩⟩

/-- Two manifests that differ in every way. -/
def demoLeft : Manifest :=
  { main := [(kManifestVersion, "1.0".toList), ("Built-By".toList, "me".toList)],
    subs := [("a".toList, [(kName, "a".toList), ("X".toList, "1".toList)]),
             ("b".toList, [(kName, "b".toList)])], linesep := none }
def demoRight : Manifest :=
  { main := [(kManifestVersion, "1.0".toList), ("Built-By".toList, "you".toList)],
    subs := [("c".toList, [(kName, "c".toList)]),
             ("a".toList, [(kName, "a".toList), ("X".toList, "2".toList)])], linesep := none }

def demoOpts (keys : List Str) : DiffOpts :=
  { flags := [], manifestKeys := keys, jarEntries := [], filenames := [] }

example : ∃ c, (manifestChange dedup (fun _ => []) demoLeft demoRight).check = .ok c ∧
    c.isChange = true ∧ c.collect.length = 4 ∧
    c.collect.map Change.getDescription =
      ["Manifest Main Section has changed".toList, "Manifest Subsection Changed: a".toList,
       "Manifest Subsection Removed: b".toList, "Manifest Subsection Added: c".toList] ∧
    c.collect.map (Change.isIgnored (demoOpts ["Built-By".toList])) = [true, false, false, false] ∧
    c.collect.map (Change.isIgnored (demoOpts ["X".toList])) = [false, true, false, false] :=
  ⟨_, rfl, by decide +kernel⟩

/-! ### C70 -/

/-- The name without regard to (ASCII) case. -/
def foldCase (s : Str) : Str := s.map Char.toLower

/-- C70 as stated in the help text: keys are matched without regard to case. -/
def C70_full : Prop :=
  ∀ (keys : List Str) (a b : Section), keys ≠ [] → a.keys.Nodup → b.keys.Nodup →
    (keysIgnored keys a b = true ↔
      ∀ k, DiffersAt a b k → foldCase k ∈ keys.map foldCase)

theorem C70_full_fails : ¬ C70_full := by
  intro h
  have := (h [['x']] [(['X'], ['1'])] [(['X'], ['2'])] (by simp) (by decide) (by decide)).2 (by
      intro k hk
      simp only [DiffersAt, PyDict.get?] at hk
      by_cases he : ['X'] = k
      · subst he; decide
      · simp [he] at hk)
  revert this
  decide

/-- C70 where the help text is right: when every differing attribute that matches a key without
regard to case is spelled like a key. -/
theorem C70_partial (keys : List Str) (a b : Section) (hk : keys ≠ []) (ha : a.keys.Nodup)
    (hb : b.keys.Nodup)
    (hsp : ∀ k, DiffersAt a b k → foldCase k ∈ keys.map foldCase → k ∈ keys) :
    keysIgnored keys a b = true ↔ ∀ k, DiffersAt a b k → foldCase k ∈ keys.map foldCase := by
  rw [keysIgnored_iff _ _ _ ha hb]
  exact ⟨fun h k hd => List.mem_map.2 ⟨k, h.2 k hd, rfl⟩, fun h => ⟨hk, fun k hd => hsp k hd (h k hd)⟩⟩

/-- C70: a differing attribute that is not spelled like a key is never ignored. -/
theorem C70_spelling (keys : List Str) (a b : Section) (ha : a.keys.Nodup) (hb : b.keys.Nodup)
    (k : Str) (hd : DiffersAt a b k) (hk : k ∉ keys) : keysIgnored keys a b = false := by
  rw [Bool.eq_false_iff]
  exact fun h => hk (((keysIgnored_iff _ _ _ ha hb).1 h).2 k hd)

example : keysIgnored ["Built-By".toList] [("Built-By".toList, "me".toList)]
    [("Built-By".toList, "you".toList)] = true ∧
    keysIgnored ["built-by".toList] [("Built-By".toList, "me".toList)]
    [("Built-By".toList, "you".toList)] = false := by decide +kernel

end Javatools
