import Verif.Model.Html
import Verif.Props.Change
import Verif.Props.Lines
import Verif.Props.ClassInfoCli
import Verif.Proofs.ClassDiff
import Verif.Props.HtmlTable
/-
C153-C156: what the HTML reports lay out.
-/
namespace Javatools

/-! ## C153: changes under headings -/

section
variable {α τ : Type} [DecidableEq τ]

/-- A dict of non-empty buckets. -/
def Buckets (m : PyDict τ (List α)) (g : τ → List α) : Prop :=
  m.keys.Nodup ∧ ∀ t, m.get? t = if g t = [] then none else some (g t)

theorem Buckets.getD {m : PyDict τ (List α)} {g : τ → List α} (h : Buckets m g) (t : τ) :
    (m.get? t).getD [] = g t := by
  rw [h.2]; split <;> simp_all

theorem Buckets.mem_keys {m : PyDict τ (List α)} {g : τ → List α} (h : Buckets m g) (t : τ) :
    t ∈ m.keys ↔ g t ≠ [] := by
  rw [← PyDict.get?_isSome_iff, h.2]
  by_cases e : g t = [] <;> simp [e]

theorem Buckets.del {m : PyDict τ (List α)} {g : τ → List α} (h : Buckets m g) (t : τ) :
    Buckets (m.del t) (fun u => if u = t then [] else g u) := by
  rw [PyDict.del_eq_filter m t h.1]
  have hk : (PyDict.keys (m.filter fun p => p.1 ≠ t)) = m.keys.filter (· ≠ t) := by
    simp [PyDict.keys, List.filter_map, Function.comp_def]
  refine ⟨hk ▸ h.1.filter _, fun u => ?_⟩
  by_cases hu : u = t
  · subst hu
    simp only [if_true]
    rw [PyDict.get?_eq_none_iff, hk]
    simp
  · simp only [if_neg hu]
    rw [← h.2 u]
    cases e : m.get? u with
    | none =>
      rw [PyDict.get?_eq_none_iff] at e ⊢
      rw [hk]
      exact fun hm => e (List.mem_filter.1 hm).1
    | some v =>
      refine PyDict.get?_of_mem_nodup (hk ▸ h.1.filter _) ?_
      exact List.mem_filter.2 ⟨PyDict.mem_of_get? e, by simpa using hu⟩

theorem Buckets.gather (orig : α → τ) {m : PyDict τ (List α)} {g : τ → List α} (h : Buckets m g)
    (ss : List α) :
    Buckets (gatherSquashed orig m ss) (fun t => g t ++ ss.filter fun s => orig s = t) := by
  induction ss generalizing m g with
  | nil => simpa [gatherSquashed] using h
  | cons s ss ih =>
    have h' : Buckets (m.set (orig s) ((m.get? (orig s)).getD [] ++ [s]))
        (fun t => if orig s = t then g t ++ [s] else g t) := by
      refine ⟨PyDict.nodup_keys_set _ _ _ h.1, fun t => ?_⟩
      rw [PyDict.get?_set, h.getD]
      by_cases e : orig s = t
      · subst e; simp
      · simp only [if_neg e]; exact h.2 t
    have := ih h'
    rw [gatherSquashed]
    refine (congrArg _ (funext fun t => ?_)).mp this
    by_cases e : orig s = t <;> simp [e]

theorem buckets_buckets (type : α → τ) (objs : List α) :
    Buckets (collectByType type [] objs) (fun t => objs.filter fun v => type v = t) := by
  have h0 : collectByType type [] objs = buckets type objs := by
    have := collectByType_eq type [] objs
    simpa [buckets, distinct] using this
  rw [h0, buckets]
  refine ⟨?_, fun t => ?_⟩
  · have : PyDict.keys ((distinct (objs.map type)).map fun t =>
        (t, objs.filter fun v => type v = t)) = distinct (objs.map type) := by
      simp [PyDict.keys, Function.comp_def]
    rw [this]; exact distinct_nodup _
  · rw [get?_tab]
    simp only [mem_distinct, List.mem_map]
    by_cases h : objs.filter (fun v => decide (type v = t)) = []
    · rw [if_pos h, if_neg]
      rintro ⟨v, hv, e⟩
      have := List.filter_eq_nil_iff.1 h v hv
      simp [e] at this
    · rw [if_neg h, if_pos]
      obtain ⟨v, hv⟩ := List.exists_mem_of_ne_nil _ h
      simp only [List.mem_filter, decide_eq_true_eq] at hv
      exact ⟨v, hv.1, hv.2⟩

/-- Popping the types one by one. -/
theorem renderListed_eq (entry : α → Str) (order : List τ) {m : PyDict τ (List α)}
    {g : τ → List α} (h : Buckets m g) :
    (renderListed entry m order).1 = (distinct order).flatMap (fun t => renderByClass entry t (g t)) ∧
    Buckets (renderListed entry m order).2 (fun t => if t ∈ order then [] else g t) := by
  induction order generalizing m g with
  | nil => exact ⟨by simp [renderListed, distinct], by simpa [renderListed] using h⟩
  | cons t ts ih =>
    obtain ⟨h1, h2⟩ := ih (h.del t)
    simp only [renderListed]
    refine ⟨?_, ?_⟩
    · rw [h1, h.getD, distinct, List.flatMap_cons]
      congr 1
      induction distinct ts with
      | nil => rfl
      | cons u us ihu =>
        simp only [List.flatMap_cons, ihu, List.filter_cons]
        by_cases hu : u = t
        · subst hu; simp [renderByClass]
        · simp [hu]
    · refine (congrArg _ (funext fun u => ?_)).mp h2
      by_cases hu : u = t <;> simp [hu]

/-! ### Under one heading -/

theorem byEntry_nodup (entry : α → Str) (cs : List α) {m : PyDict Str α} (h : m.keys.Nodup) :
    (byEntry entry m cs).keys.Nodup := by
  induction cs generalizing m with
  | nil => exact h
  | cons c cs ih => exact ih (PyDict.nodup_keys_set _ _ _ h)

theorem byEntry_get (entry : α → Str) (cs : List α) (m : PyDict Str α) (k : Str) :
    (byEntry entry m cs).get? k = ((cs.reverse.find? fun c => entry c = k).or (m.get? k)) := by
  induction cs generalizing m with
  | nil => simp [byEntry]
  | cons c cs ih =>
    rw [byEntry, ih, PyDict.get?_set, List.reverse_cons, List.find?_append]
    cases cs.reverse.find? (fun c => decide (entry c = k)) with
    | some x => simp
    | none =>
      by_cases e : entry c = k <;> simp [e]

/-- The last of the changes with this entry. -/
def lastWith (entry : α → Str) (cs : List α) (k : Str) : Option α :=
  cs.reverse.find? fun c => entry c = k

theorem byEntry_get_nil (entry : α → Str) (cs : List α) (k : Str) :
    (byEntry entry [] cs).get? k = lastWith entry cs k := by
  rw [byEntry_get]; simp [lastWith, PyDict.get?]

/-- The changes shown under a heading. -/
def shownUnder (entry : α → Str) (cs : List α) : List α :=
  (sortNames (byEntry entry [] cs).keys).filterMap (byEntry entry [] cs).get?

theorem mem_shownUnder (entry : α → Str) (cs : List α) (c : α) :
    c ∈ shownUnder entry cs ↔ lastWith entry cs (entry c) = some c := by
  simp only [shownUnder, List.mem_filterMap, mem_sortNames, byEntry_get_nil]
  constructor
  · rintro ⟨k, _, hk⟩
    have := List.find?_some hk
    simp only [decide_eq_true_eq] at this
    rw [this]; exact hk
  · intro h
    refine ⟨entry c, ?_, h⟩
    rw [← PyDict.get?_isSome_iff, byEntry_get_nil, h]; rfl

theorem lastWith_mem {entry : α → Str} {cs : List α} {k : Str} {c : α}
    (h : lastWith entry cs k = some c) : c ∈ cs ∧ entry c = k := by
  refine ⟨List.mem_reverse.1 (List.mem_of_find?_eq_some h), ?_⟩
  simpa using List.find?_some h

theorem lastWith_isSome {entry : α → Str} {cs : List α} {c : α} (h : c ∈ cs) :
    ∃ c', lastWith entry cs (entry c) = some c' := by
  have : (lastWith entry cs (entry c)).isSome := by
    rw [lastWith, List.find?_isSome]
    exact ⟨c, List.mem_reverse.2 h, by simp⟩
  exact Option.isSome_iff_exists.1 this

theorem sorted_lt {l : List Str} (h : l.Nodup) : (sortNames l).Pairwise (· < ·) := by
  have h1 := sortNames_sorted l
  have h2 : (sortNames l).Nodup := (sortNames_perm l).nodup_iff.2 h
  refine List.Pairwise.imp₂ (fun a b hab hne => ?_) h1 h2
  refine Classical.byContradiction fun hlt => hne (List.le_antisymm hab ?_)
  exact List.not_lt.1 hlt

theorem shownUnder_sorted (entry : α → Str) (cs : List α) :
    (shownUnder entry cs).Pairwise (fun a b => entry a < entry b) := by
  unfold shownUnder
  rw [List.pairwise_filterMap]
  refine (sorted_lt (byEntry_nodup entry cs (by simp [PyDict.keys]))).imp ?_
  intro k k' hk a ha b hb
  rw [byEntry_get_nil] at ha hb
  rw [(lastWith_mem ha).2, (lastWith_mem hb).2]
  exact hk

theorem renderByClass_eq (entry : α → Str) (t : τ) (cs : List α) :
    renderByClass entry t cs = if cs = [] then [] else [(t, shownUnder entry cs)] := by
  simp only [renderByClass, shownUnder]

theorem eq_of_nodup_map {β γ : Type} {f : β → γ} {l : List β} (h : (l.map f).Nodup) {a b : β}
    (ha : a ∈ l) (hb : b ∈ l) (e : f a = f b) : a = b := by
  induction l with
  | nil => simp at ha
  | cons x l ih =>
    simp only [List.map_cons, List.nodup_cons, List.mem_map, not_exists, not_and] at h
    rcases List.mem_cons.1 ha with ea | ha' <;> rcases List.mem_cons.1 hb with eb | hb'
    · rw [ea, eb]
    · exact absurd (e ▸ ea ▸ rfl) (h.1 b hb')
    · exact absurd (eb ▸ e) (h.1 a ha')
    · exact ih h.2 ha' hb'

/-! ### The whole report -/

variable (type orig : α → τ) (entry : α → Str) (sq : τ)

/-- The heading a change belongs under: its class; for a squashed change, that of the change it
stands for. -/
def headingOf (c : α) : τ := if type c = sq then orig c else type c

/-- The changes of a heading: first those of the class, then the squashed ones. -/
def groupOf (children : List α) (t : τ) : List α :=
  (children.filter fun c => type c = t ∧ type c ≠ sq) ++
    (children.filter fun c => type c = sq ∧ orig c = t)

theorem mem_groupOf (children : List α) (t : τ) (c : α) :
    c ∈ groupOf type orig sq children t ↔ c ∈ children ∧ headingOf type orig sq c = t := by
  simp only [groupOf, List.mem_append, List.mem_filter, headingOf, decide_eq_true_eq]
  by_cases h : type c = sq <;> simp [h]

theorem gathered_buckets (children : List α) :
    Buckets (gatherSquashed orig ((collectByType type [] children).del sq)
      (((collectByType type [] children).get? sq).getD [])) (groupOf type orig sq children) := by
  have h := buckets_buckets type children
  rw [h.getD]
  have h2 := (h.del sq).gather orig (children.filter fun v => type v = sq)
  refine (congrArg _ (funext fun t => ?_)).mp h2
  unfold groupOf
  congr 1
  · by_cases e : t = sq
    · subst e
      rw [if_pos rfl, eq_comm, List.filter_eq_nil_iff]
      intro c _
      simp
    · rw [if_neg e]
      apply List.filter_congr
      intro c _
      by_cases h : type c = t
      · simp [h, e]
      · simp [h]
  · rw [List.filter_filter]
    apply List.filter_congr
    intro c _
    by_cases h : type c = sq <;> by_cases h' : orig c = t <;> simp [h, h']

/-- C153, exactly what is shown: the listed headings in their order, then the others, each with its
changes. -/
theorem C153_exact (order : List τ) (children : List α) :
    ∃ rest : List τ, rest.Nodup ∧
      (∀ t, t ∈ rest ↔ t ∉ order ∧ ∃ c ∈ children, headingOf type orig sq c = t) ∧
      reportGroups type orig entry sq order children =
        (((distinct order).filter fun t => !(groupOf type orig sq children t).isEmpty) ++ rest).map
          fun t => (t, shownUnder entry (groupOf type orig sq children t)) := by
  have hb := gathered_buckets type orig sq children
  obtain ⟨h1, h2⟩ := renderListed_eq entry order hb
  generalize hm : (renderListed entry (gatherSquashed orig ((collectByType type [] children).del sq)
      (((collectByType type [] children).get? sq).getD [])) order).2 = m at h2
  refine ⟨m.keys, h2.1, fun t => ?_, ?_⟩
  · rw [h2.mem_keys]
    by_cases h : t ∈ order
    · simp [h]
    · simp only [h, if_false, ne_eq, not_false_iff, true_and]
      constructor
      · intro hne
        obtain ⟨c, hc⟩ := List.exists_mem_of_ne_nil _ hne
        exact ⟨c, (mem_groupOf type orig sq children t c).1 hc⟩
      · rintro ⟨c, hc⟩ e
        have := (mem_groupOf type orig sq children t c).2 hc
        rw [e] at this; simp at this
  · simp only [reportGroups]
    rw [h1, hm, List.map_append]
    congr 1
    · induction distinct order with
      | nil => rfl
      | cons t ts ih =>
        simp only [List.flatMap_cons, renderByClass_eq, List.filter_cons] at ih ⊢
        rw [ih]
        by_cases e : groupOf type orig sq children t = [] <;> simp [e]
    · have key : ∀ p ∈ m, p.2 = groupOf type orig sq children p.1 ∧ p.2 ≠ [] := by
        intro p hp
        have := PyDict.get?_of_mem_nodup h2.1 (k := p.1) (v := p.2) hp
        rw [h2.2] at this
        grind
      clear hm h2
      induction m with
      | nil => rfl
      | cons p m ih =>
        have hp := key p (by simp)
        have := ih fun q hq => key q (by simp [hq])
        rw [List.flatMap_cons, this, renderByClass_eq, if_neg hp.2, hp.1]
        rfl

/-- C153: each heading comes once, the listed ones first and in their order; no heading is empty. -/
theorem C153_headings (order : List τ) (children : List α) :
    ((reportGroups type orig entry sq order children).map Prod.fst).Nodup ∧
    (∃ rest, (∀ t ∈ rest, t ∉ order) ∧
      (reportGroups type orig entry sq order children).map Prod.fst =
        ((distinct order).filter fun t => children.any fun c => headingOf type orig sq c = t) ++ rest) ∧
    ∀ p ∈ reportGroups type orig entry sq order children, p.2 ≠ [] := by
  obtain ⟨rest, h1, h2, h3⟩ := C153_exact type orig entry sq order children
  have hf : ∀ t, (!(groupOf type orig sq children t).isEmpty) =
      children.any fun c => headingOf type orig sq c = t := by
    intro t
    rw [Bool.eq_iff_iff]
    simp only [Bool.not_eq_true', List.isEmpty_eq_false_iff, List.any_eq_true, decide_eq_true_eq]
    constructor
    · intro hne
      obtain ⟨c, hc⟩ := List.exists_mem_of_ne_nil _ hne
      exact ⟨c, (mem_groupOf type orig sq children t c).1 hc⟩
    · rintro ⟨c, hc⟩ e
      have := (mem_groupOf type orig sq children t c).2 hc
      rw [e] at this; simp at this
  have hm : (reportGroups type orig entry sq order children).map Prod.fst =
      ((distinct order).filter fun t => children.any fun c => headingOf type orig sq c = t) ++ rest := by
    rw [h3, List.map_map]
    simp only [Function.comp_def, List.map_id', hf]
  refine ⟨?_, ⟨rest, fun t ht => ((h2 t).1 ht).1, hm⟩, ?_⟩
  · rw [hm, List.nodup_append]
    refine ⟨(distinct_nodup order).filter _, h1, ?_⟩
    rintro t ht _ hr rfl
    rw [List.mem_filter, mem_distinct] at ht
    exact ((h2 t).1 hr).1 ht.1
  · intro p hp
    rw [h3, List.mem_map] at hp
    obtain ⟨t, ht, rfl⟩ := hp
    have hne : groupOf type orig sq children t ≠ [] := by
      rcases List.mem_append.1 ht with ht | ht
      · have := (List.mem_filter.1 ht).2
        simpa using this
      · obtain ⟨c, hc⟩ := ((h2 t).1 ht).2
        intro e
        have := (mem_groupOf type orig sq children t c).2 hc
        rw [e] at this; simp at this
    obtain ⟨c, hc⟩ := List.exists_mem_of_ne_nil _ hne
    obtain ⟨c', hc'⟩ := lastWith_isSome (entry := entry) hc
    have : c' ∈ shownUnder entry (groupOf type orig sq children t) := by
      rw [mem_shownUnder, (lastWith_mem hc').2]; exact hc'
    intro e
    simp only at e
    rw [e] at this; simp at this

/-- C153: under a heading are only changes that belong there, in the order of their entries, no
entry twice. -/
theorem C153_shown (order : List τ) (children : List α) {t : τ} {cs : List α}
    (h : (t, cs) ∈ reportGroups type orig entry sq order children) :
    (∀ c ∈ cs, c ∈ children ∧ headingOf type orig sq c = t) ∧
    cs.Pairwise (fun a b => entry a < entry b) := by
  obtain ⟨rest, h1, h2, h3⟩ := C153_exact type orig entry sq order children
  rw [h3, List.mem_map] at h
  obtain ⟨u, _, e⟩ := h
  obtain ⟨rfl, rfl⟩ := Prod.mk.injEq .. ▸ e
  refine ⟨fun c hc => ?_, shownUnder_sorted _ _⟩
  rw [mem_shownUnder] at hc
  exact (mem_groupOf ..).1 (lastWith_mem hc).1

/-- C153: every change has its heading, and under it a change of the same entry. -/
theorem C153_every (order : List τ) (children : List α) {c : α} (h : c ∈ children) :
    ∃ cs, (headingOf type orig sq c, cs) ∈ reportGroups type orig entry sq order children ∧
      ∃ c' ∈ cs, entry c' = entry c := by
  obtain ⟨rest, h1, h2, h3⟩ := C153_exact type orig entry sq order children
  have hg := (mem_groupOf type orig sq children _ c).2 ⟨h, rfl⟩
  refine ⟨shownUnder entry (groupOf type orig sq children (headingOf type orig sq c)), ?_, ?_⟩
  · rw [h3, List.mem_map]
    refine ⟨_, ?_, rfl⟩
    rw [List.mem_append, List.mem_filter, mem_distinct]
    by_cases ho : headingOf type orig sq c ∈ order
    · refine .inl ⟨ho, ?_⟩
      cases e : groupOf type orig sq children (headingOf type orig sq c) with
      | nil => rw [e] at hg; simp at hg
      | cons _ _ => rfl
    · exact .inr ((h2 _).2 ⟨ho, c, h, rfl⟩)
  · obtain ⟨c', hc'⟩ := lastWith_isSome (entry := entry) hg
    have := lastWith_mem hc'
    exact ⟨c', (mem_shownUnder ..).2 (by rw [this.2]; exact hc'), this.2⟩

/-- C153: when no two changes have the same heading and entry, the report shows every change
exactly once. -/
theorem C153_once (order : List τ) (children : List α)
    (hn : (children.map fun c => (headingOf type orig sq c, entry c)).Nodup) :
    ((reportGroups type orig entry sq order children).flatMap Prod.snd).Perm children := by
  have hc : children.Nodup := (List.pairwise_map.1 hn).imp fun h e => h (by rw [e])
  have hinj : ∀ a ∈ children, ∀ b ∈ children, headingOf type orig sq a = headingOf type orig sq b →
      entry a = entry b → a = b := by
    intro a ha b hb e1 e2
    exact eq_of_nodup_map hn ha hb (by simp [e1, e2])
  have hd := (C153_headings type orig entry sq order children).1
  refine (List.perm_ext_iff_of_nodup ?_ hc).2 fun c => ?_
  · rw [List.Nodup, List.pairwise_flatMap]
    refine ⟨fun p hp => ?_, ?_⟩
    · have := (C153_shown type orig entry sq order children (t := p.1) (cs := p.2) hp).2
      exact this.imp fun hlt e => by rw [e] at hlt; exact List.lt_irrefl _ hlt
    · have : (reportGroups type orig entry sq order children).Pairwise fun p q => p.1 ≠ q.1 :=
        List.pairwise_map.1 hd
      refine this.imp_of_mem ?_
      rintro p q hp hq hne c h1 _ h2 rfl
      have e1 := ((C153_shown type orig entry sq order children (t := p.1) (cs := p.2) hp).1 c h1).2
      have e2 := ((C153_shown type orig entry sq order children (t := q.1) (cs := q.2) hq).1 c h2).2
      exact hne (e1.symm.trans e2)
  · rw [List.mem_flatMap]
    constructor
    · rintro ⟨p, hp, hcp⟩
      exact ((C153_shown type orig entry sq order children (t := p.1) (cs := p.2) hp).1 c hcp).1
    · intro h
      obtain ⟨cs, hcs, c', hc', e⟩ := C153_every type orig entry sq order children h
      have h2 := (C153_shown type orig entry sq order children hcs).1 c' hc'
      have : c' = c := hinj c' h2.1 c h h2.2 e
      exact ⟨_, hcs, this ▸ hc'⟩
end

/-- The heading in a JAR report. -/
def jarHeading (c : Child) : String :=
  if c.type ≠ "SquashedChange" then c.type
  else if c.origclass = "JarClassReport" then "JarClassChange" else c.origclass

/-- The heading in a distribution report. -/
def distHeading (c : Child) : String :=
  if c.type ≠ "SquashedChange" then c.type
  else if c.origclass = "DistJarReport" then "DistJarChange"
  else if c.origclass = "DistClassReport" then "DistClassChange"
  else c.origclass

/-- The headings of a JAR report: the manifest, then signatures, contents and classes, each added,
removed and changed. -/
def jarHeadings : List String :=
  "JarManifestChange" ::
    ["JarSignatureFile", "JarSignatureBlockFile", "JarContent", "JarClass"].flatMap fun k =>
      ["Added", "Removed", "Change"].map (k ++ ·)

/-- The headings of a distribution report: classes and JARs, text and manifests, the rest. -/
def distHeadings : List String :=
  (["DistClass", "DistJar"].flatMap fun k => ["Added", "Removed", "Change"].map (k ++ ·)) ++
    ["DistTextChange", "DistManifestChange"] ++ ["Added", "Removed", "Change"].map ("DistContent" ++ ·)

/-- What C153 says of a report. -/
structure ShowsOnce (heading : Child → String) (order : List String)
    (groups : List (String × List Child)) (children : List Child) : Prop where
  once : (groups.flatMap Prod.snd).Perm children
  under : ∀ p ∈ groups, p.2 ≠ [] ∧ (∀ c ∈ p.2, heading c = p.1) ∧
    p.2.Pairwise (fun a b => a.entry < b.entry)
  headings : (groups.map Prod.fst).Nodup
  listed : ∃ first rest, groups.map Prod.fst = first ++ rest ∧ first.Sublist order ∧
    ∀ t ∈ rest, t ∉ order

theorem distinct_sublist {τ : Type} [DecidableEq τ] (l : List τ) : (distinct l).Sublist l := by
  induction l with
  | nil => exact .slnil
  | cons x l ih => exact (List.filter_sublist.trans ih).cons₂ x

theorem showsOnce {heading orig : Child → String} {order : List String} (children : List Child)
    (he : ∀ c, headingOf Child.type orig "SquashedChange" c = heading c)
    (hn : (children.map fun c => (heading c, c.entry)).Nodup) :
    ShowsOnce heading (distinct order)
      (reportGroups Child.type orig Child.entry "SquashedChange" order children) children := by
  have h := C153_headings Child.type orig Child.entry "SquashedChange" order children
  refine ⟨C153_once Child.type orig Child.entry "SquashedChange" order children
      (by simpa only [he] using hn), fun p hp => ⟨h.2.2 p hp, ?_, ?_⟩, h.1, ?_⟩
  · intro c hc
    rw [← he]
    exact ((C153_shown Child.type orig Child.entry "SquashedChange" order children
      (t := p.1) (cs := p.2) hp).1 c hc).2
  · exact (C153_shown Child.type orig Child.entry "SquashedChange" order children
      (t := p.1) (cs := p.2) hp).2
  · obtain ⟨rest, h1, h2⟩ := h.2.1
    exact ⟨_, rest, h2, List.filter_sublist, fun t ht hm => h1 t ht ((distinct_sublist _).subset hm)⟩

/-- C153 for the report on a JAR. -/
theorem C153_jar (children : List Child)
    (hn : (children.map fun c => (jarHeading c, c.entry)).Nodup) :
    ShowsOnce jarHeading jarHeadings (jarGroups children) children :=
  (show distinct jarOrder = jarHeadings by decide +kernel) ▸ showsOnce children (fun c => by
    unfold headingOf jarHeading jarOrig; by_cases h : c.type = "SquashedChange" <;> simp [h]) hn

/-- C153 for the report on a distribution. -/
theorem C153_dist (children : List Child)
    (hn : (children.map fun c => (distHeading c, c.entry)).Nodup) :
    ShowsOnce distHeading distHeadings (distGroups children) children :=
  (show distinct distOrder = distHeadings by decide +kernel) ▸ showsOnce children (fun c => by
    unfold headingOf distHeading distOrig; by_cases h : c.type = "SquashedChange" <;> simp [h]) hn

/-- Two squashed class reports and an added resource. -/
example : jarGroups [⟨"SquashedChange", "JarClassReport", "b.class".toList⟩,
      ⟨"JarContentAdded", "", "x.txt".toList⟩, ⟨"SquashedChange", "JarClassReport", "a.class".toList⟩] =
    [("JarContentAdded", [⟨"JarContentAdded", "", "x.txt".toList⟩]),
     ("JarClassChange", [⟨"SquashedChange", "JarClassReport", "a.class".toList⟩,
       ⟨"SquashedChange", "JarClassReport", "b.class".toList⟩])] := by decide +kernel

example : distGroups [⟨"DistContentAdded", "", "z".toList⟩, ⟨"DistMoved", "", "q".toList⟩,
      ⟨"SquashedChange", "DistJarReport", "a.jar".toList⟩,
      ⟨"SquashedChange", "DistClassReport", "a.class".toList⟩] =
    [("DistClassChange", [⟨"SquashedChange", "DistClassReport", "a.class".toList⟩]),
     ("DistJarChange", [⟨"SquashedChange", "DistJarReport", "a.jar".toList⟩]),
     ("DistContentAdded", [⟨"DistContentAdded", "", "z".toList⟩]),
     ("DistMoved", [⟨"DistMoved", "", "q".toList⟩])] := by decide +kernel

/-! ## C155: annotations -/

section
variable (E : PrintEnv)

/-- C155, exactly what the table of both sides shows: a row for each index of the longer side, with
both texts, marked as changed when the annotations differ. -/
theorem C155_exact (lp rp : Pool) (l r : List AVal) {rows : List AnnoRow}
    (h : dualAnnotations E lp rp l r = .ok rows) :
    rows.length = max l.length r.length ∧
    ∀ (i : Nat) row, rows[i]? = some row → row.index = i ∧
      dualAnnoCell E lp l[i]? = .ok row.left ∧ dualAnnoCell E rp r[i]? = .ok row.right ∧
      optAnnoEq E lp rp l[i]? r[i]? = .ok (!row.changed) := by
  have key : ∀ (ps : List (Option AVal × Option AVal)) (n : Nat) rows,
      dualAnnoRows E lp rp n ps = .ok rows → rows.length = ps.length ∧
      ∀ (i : Nat) row p, rows[i]? = some row → ps[i]? = some p → row.index = n + i ∧
        dualAnnoCell E lp p.1 = .ok row.left ∧ dualAnnoCell E rp p.2 = .ok row.right ∧
        optAnnoEq E lp rp p.1 p.2 = .ok (!row.changed) := by
    intro ps
    induction ps with
    | nil =>
      intro n rows h
      simp only [dualAnnoRows, Except.ok.injEq] at h
      subst h
      exact ⟨rfl, by simp⟩
    | cons q ps ih =>
      intro n rows h
      obtain ⟨a, b⟩ := q
      simp only [dualAnnoRows] at h
      cases h1 : dualAnnoCell E lp a with
      | error e => rw [h1] at h; simp at h
      | ok left =>
        cases h2 : optAnnoEq E lp rp a b with
        | error e => rw [h1, h2] at h; simp at h
        | ok eq =>
          cases h3 : dualAnnoCell E rp b with
          | error e => rw [h1, h2, h3] at h; simp at h
          | ok right =>
            cases h4 : dualAnnoRows E lp rp (n + 1) ps with
            | error e => rw [h1, h2, h3, h4] at h; simp at h
            | ok more =>
              rw [h1, h2, h3, h4] at h
              simp only [Except.ok.injEq] at h
              subst h
              obtain ⟨hl, hr⟩ := ih (n + 1) more h4
              refine ⟨by simp [hl], fun i row p hi hp => ?_⟩
              cases i with
              | zero =>
                simp only [List.getElem?_cons_zero, Option.some.injEq] at hi hp
                subst hi hp
                exact ⟨rfl, h1, h3, by simpa using h2⟩
              | succ i =>
                simp only [List.getElem?_cons_succ] at hi hp
                obtain ⟨e1, e2⟩ := hr i row p hi hp
                exact ⟨by omega, e2⟩
  obtain ⟨h1, h2⟩ := key _ 0 rows h
  rw [zipPairs_eq, List.length_map, List.length_range] at h1
  refine ⟨h1, fun i row hi => ?_⟩
  have hlt : i < max l.length r.length := by
    rw [← h1]; exact (List.getElem?_eq_some_iff.1 hi).1
  have := h2 i row (l[i]?, r[i]?) hi (by
    rw [zipPairs_eq, List.getElem?_map, List.getElem?_range hlt]; rfl)
  simpa using this

/-- Annotations, as the class file has them. -/
def IsAnno (a : AVal) : Prop := ∃ t es, a = .anno t es

/-- C155 as stated: the table of changed annotations shows the text of every annotation of both
sides. It fails for annotations without elements, such as `@Override`. -/
def C155_full : Prop := ∀ (E : PrintEnv) (lp rp : Pool) (l r : List AVal) (rows : List AnnoRow),
  (∀ a ∈ l, IsAnno a) → (∀ a ∈ r, IsAnno a) → dualAnnotations E lp rp l r = .ok rows →
  (∀ (i : Nat) a, l[i]? = some a → ∃ row, rows[i]? = some row ∧ annoText E lp a = .ok row.left) ∧
  (∀ (i : Nat) a, r[i]? = some a → ∃ row, rows[i]? = some row ∧ annoText E rp a = .ok row.right)

/-- An environment for the examples. -/
def htmlEnv : PrintEnv := { lim := 10, depth := 10, printable := fun _ => true, other := fun _ => [] }

/-- A pool with the name of an annotation. -/
def markerPool : Pool := [none, some (.utf8 "LOverride;".toList)]

theorem C155_full_fails : ¬ C155_full := by
  intro h
  have := (h htmlEnv markerPool [] [.anno 1 []] [] [⟨0, [], [], true⟩]
    (by simp [IsAnno]) (by simp) (by decide +kernel)).1 0 (.anno 1 []) rfl
  obtain ⟨row, h1, h2⟩ := this
  simp only [List.getElem?_cons_zero, Option.some.injEq] at h1
  subst h1
  have e : annoText htmlEnv markerPool (.anno 1 []) = .ok "Override()".toList := by decide +kernel
  rw [e] at h2
  revert h2
  decide

/-- C155, what goes missing: an annotation without elements is shown blank. -/
theorem C155_marker_blank (lp rp : Pool) (l r : List AVal) {rows : List AnnoRow}
    (h : dualAnnotations E lp rp l r = .ok rows) (i t : Nat) :
    (l[i]? = some (.anno t []) → ∃ row, rows[i]? = some row ∧ row.left = []) ∧
    (r[i]? = some (.anno t []) → ∃ row, rows[i]? = some row ∧ row.right = []) := by
  obtain ⟨h1, h2⟩ := C155_exact E lp rp l r h
  have hrow : i < l.length ∨ i < r.length → ∃ row, rows[i]? = some row := by
    intro hi
    have : i < rows.length := by rw [h1]; omega
    exact ⟨rows[i], List.getElem?_eq_getElem this⟩
  refine ⟨fun hi => ?_, fun hi => ?_⟩
  · obtain ⟨row, hr⟩ := hrow (.inl (List.getElem?_eq_some_iff.1 hi).1)
    have := (h2 i row hr).2.1
    rw [hi] at this
    exact ⟨row, hr, by simpa [dualAnnoCell] using this.symm⟩
  · obtain ⟨row, hr⟩ := hrow (.inr (List.getElem?_eq_some_iff.1 hi).1)
    have := (h2 i row hr).2.2.1
    rw [hi] at this
    exact ⟨row, hr, by simpa [dualAnnoCell] using this.symm⟩

/-- C155 for annotations that have elements. -/
theorem C155_partial (lp rp : Pool) (l r : List AVal) {rows : List AnnoRow}
    (h : dualAnnotations E lp rp l r = .ok rows) (i t : Nat) (es : List (PVal × AVal))
    (he : es ≠ []) :
    (l[i]? = some (.anno t es) →
      ∃ row, rows[i]? = some row ∧ annoText E lp (.anno t es) = .ok row.left) ∧
    (r[i]? = some (.anno t es) →
      ∃ row, rows[i]? = some row ∧ annoText E rp (.anno t es) = .ok row.right) := by
  obtain ⟨h1, h2⟩ := C155_exact E lp rp l r h
  have hrow : i < l.length ∨ i < r.length → ∃ row, rows[i]? = some row := by
    intro hi
    have : i < rows.length := by rw [h1]; omega
    exact ⟨rows[i], List.getElem?_eq_getElem this⟩
  have hc : ∀ pool, dualAnnoCell E pool (some (.anno t es)) = annoText E pool (.anno t es) := by
    intro pool
    cases es with
    | nil => exact absurd rfl he
    | cons e es => rfl
  refine ⟨fun hi => ?_, fun hi => ?_⟩
  · obtain ⟨row, hr⟩ := hrow (.inl (List.getElem?_eq_some_iff.1 hi).1)
    have := (h2 i row hr).2.1
    rw [hi, hc] at this
    exact ⟨row, hr, this⟩
  · obtain ⟨row, hr⟩ := hrow (.inr (List.getElem?_eq_some_iff.1 hi).1)
    have := (h2 i row hr).2.2.1
    rw [hi, hc] at this
    exact ⟨row, hr, this⟩

/-- C155: the table of unchanged annotations shows every one of them. -/
theorem C155_unchanged (pool : Pool) (as : List AVal) {rows : List (Nat × Str)}
    (h : singleAnnotations E pool 0 as = .ok rows) :
    rows.length = as.length ∧ ∀ (i : Nat) a, as[i]? = some a →
      ∃ t, rows[i]? = some (i, t) ∧ annoText E pool a = .ok t := by
  have key : ∀ (as : List AVal) (n : Nat) rows, singleAnnotations E pool n as = .ok rows →
      rows.length = as.length ∧ ∀ (i : Nat) a, as[i]? = some a →
        ∃ t, rows[i]? = some (n + i, t) ∧ annoText E pool a = .ok t := by
    intro as
    induction as with
    | nil =>
      intro n rows h
      simp only [singleAnnotations, Except.ok.injEq] at h
      subst h
      exact ⟨rfl, by simp⟩
    | cons a as ih =>
      intro n rows h
      simp only [singleAnnotations] at h
      cases h1 : annoText E pool a with
      | error e => rw [h1] at h; simp at h
      | ok t =>
        cases h2 : singleAnnotations E pool (n + 1) as with
        | error e => rw [h1, h2] at h; simp at h
        | ok more =>
          rw [h1, h2] at h
          simp only [Except.ok.injEq] at h
          subst h
          obtain ⟨hl, hr⟩ := ih (n + 1) more h2
          refine ⟨by simp [hl], fun i b hb => ?_⟩
          cases i with
          | zero =>
            simp only [List.getElem?_cons_zero, Option.some.injEq] at hb
            subst hb
            exact ⟨t, rfl, h1⟩
          | succ i =>
            simp only [List.getElem?_cons_succ] at hb ⊢
            obtain ⟨t', h3, h4⟩ := hr i b hb
            exact ⟨t', by rw [h3]; congr 2; omega, h4⟩
  simpa using key as 0 rows h

example : dualAnnotations htmlEnv markerPool markerPool [.anno 1 [], .anno 1 [(.str "v".toList, .const 's'.toNat 1)]]
    [.anno 1 []] = .ok [⟨0, [], [], false⟩, ⟨1, "Override(v=s#1)".toList, [], true⟩] := by decide +kernel
end

/-! ## C156: constants -/

section
variable (E : PrintEnv)

/-- A cell of the table shows type and value of a constant. -/
def ShowsConst (c : PrettyCell) (shown : Str × Str) : Prop :=
  match c with
  | none => shown = ([], [])
  | some (_, k) => ∃ t v, constText E k = .ok (t, v) ∧ shown = (t, xmlEscape v)

/-- C156 as stated: each row of the table of changed constants shows type and value of the original
constant, and of the modified one unless they are the same. It fails for the number 0. -/
def C156_full : Prop := ∀ (E : PrintEnv) (l r : Pool) ms rows,
  prettyMergeConstants l r = .ok ms → dualConstants E l r = .ok rows →
  rows.length = ms.length ∧ ∀ (i : Nat) m row, ms[i]? = some m → rows[i]? = some row →
    row.index = m.1 ∧ ShowsConst E m.2.1 row.left ∧
    (match row.right with
      | some s => ShowsConst E m.2.2 s
      | none => cellKey E m.2.1 = cellKey E m.2.2)

theorem C156_full_fails : ¬ C156_full := by
  intro h
  have := (h htmlEnv [none, some (.integer 0)] [none, some (.integer 5)]
    [(1, some ("int", .integer 0), some ("int", .integer 5))]
    [⟨1, ("int".toList, []), some ("int".toList, "5".toList)⟩]
    (by decide +kernel) (by decide +kernel)).2 0 _ _ rfl rfl
  obtain ⟨t, v, h1, h2⟩ := this.2.1
  have e : constText htmlEnv (.integer 0) = .ok ("int".toList, "0".toList) := by decide +kernel
  rw [e] at h1
  simp only [Except.ok.injEq, Prod.mk.injEq] at h1
  obtain ⟨rfl, rfl⟩ := h1
  revert h2
  decide +kernel

theorem mapM_getElem {β γ : Type} {f : β → Res γ} {xs : List β} {ys : List γ}
    (h : xs.mapM f = .ok ys) : ys.length = xs.length ∧
      ∀ (i : Nat) x y, xs[i]? = some x → ys[i]? = some y → f x = .ok y := by
  induction xs generalizing ys with
  | nil =>
    have : ys = [] := by
      have : (pure [] : Res (List γ)) = .ok ys := h
      simpa [pure, Except.pure] using this.symm
    subst this
    exact ⟨rfl, by simp⟩
  | cons x xs ih =>
    rw [List.mapM_cons] at h
    simp only [bind, Except.bind] at h
    cases h1 : f x with
    | error e => rw [h1] at h; simp at h
    | ok y =>
      rw [h1] at h
      simp only at h
      cases h2 : xs.mapM f with
      | error e => rw [h2] at h; simp at h
      | ok more =>
        rw [h2] at h
        simp only [pure, Except.pure, Except.ok.injEq] at h
        subst h
        obtain ⟨hl, hr⟩ := ih h2
        refine ⟨by simp [hl], fun i a b ha hb => ?_⟩
        cases i with
        | zero =>
          simp only [List.getElem?_cons_zero, Option.some.injEq] at ha hb
          subst ha hb
          exact h1
        | succ i =>
          simp only [List.getElem?_cons_succ] at ha hb
          exact hr i a b ha hb

/-- C156, exactly what each row shows. -/
theorem C156_exact (l r : Pool) {ms rows} (hm : prettyMergeConstants l r = .ok ms)
    (h : dualConstants E l r = .ok rows) :
    rows.length = ms.length ∧ ∀ (i : Nat) m row, ms[i]? = some m → rows[i]? = some row →
      row.index = m.1 ∧ dualConstCell E m.2.1 = .ok row.left ∧
      (match row.right with
        | some s => cellKey E m.2.1 ≠ cellKey E m.2.2 ∧ dualConstCell E m.2.2 = .ok s
        | none => cellKey E m.2.1 = cellKey E m.2.2) := by
  unfold dualConstants at h
  rw [hm] at h
  obtain ⟨h1, h2⟩ := mapM_getElem h
  refine ⟨h1, fun i m row hi hr => ?_⟩
  have := h2 i m row hi hr
  unfold dualConstRow at this
  cases ha : cellKey E m.2.1 with
  | error e => rw [ha] at this; simp at this
  | ok a =>
    cases hb : cellKey E m.2.2 with
    | error e => rw [ha, hb] at this; simp at this
    | ok b =>
      rw [ha, hb] at this
      simp only at this
      cases hl : dualConstCell E m.2.1 with
      | error e => rw [hl] at this; simp at this
      | ok left =>
        rw [hl] at this
        simp only at this
        by_cases hab : a = b
        · rw [if_pos hab] at this
          simp only [Except.ok.injEq] at this
          subst this
          exact ⟨rfl, rfl, by simp [hab]⟩
        · rw [if_neg hab] at this
          cases hs : dualConstCell E m.2.2 with
          | error e => rw [hs] at this; simp at this
          | ok right =>
            rw [hs] at this
            simp only [Except.ok.injEq] at this
            subst this
            exact ⟨rfl, rfl, by simp [hab], rfl⟩

/-- The constants whose value is the number 0. -/
def zeroConsts : List Const := [.integer 0, .module 0, .package 0]

/-- C156, what goes missing: of a constant with the number 0 only the type is shown. -/
theorem C156_zero_blank (c : Const) (hc : c ∈ zeroConsts) (n : String) :
    ∃ t, dualConstCell E (some (n, c)) = .ok (t, []) ∧ ¬ ShowsConst E (some (n, c)) (t, []) := by
  simp only [zeroConsts, List.mem_cons, List.not_mem_nil, or_false] at hc
  rcases hc with rfl | rfl | rfl
  all_goals
    refine ⟨_, rfl, ?_⟩
    rintro ⟨t, v, h1, h2⟩
    simp only [constText, Except.ok.injEq, Prod.mk.injEq] at h1 h2
    rw [← h1.2] at h2
    revert h2
    simp [show xmlEscape (intText 0) = ['0'] from by decide +kernel,
      show xmlEscape (natText 0) = ['0'] from by decide +kernel]

theorem showsConst_of (c : PrettyCell) {s : Str × Str} (h : dualConstCell E c = .ok s)
    (hz : ∀ n k, c = some (n, k) → k ∉ zeroConsts) : ShowsConst E c s := by
  cases c with
  | none => simpa [dualConstCell, ShowsConst] using h.symm
  | some p =>
    obtain ⟨n, k⟩ := p
    have hz := hz n k rfl
    simp only [dualConstCell] at h
    cases hk : constText E k with
    | error e => rw [hk] at h; simp at h
    | ok tv =>
      obtain ⟨t, v⟩ := tv
      rw [hk] at h
      simp only [Except.ok.injEq] at h
      refine ⟨t, v, hk, ?_⟩
      rw [← h]
      by_cases hf : falsyConst k = true
      · rw [if_pos hf]
        cases k <;> simp only [falsyConst, decide_eq_true_eq, Bool.false_eq_true] at hf
        case utf8 u =>
          simp only [List.isEmpty_iff] at hf
          subst hf
          simp only [constText, Except.ok.injEq, Prod.mk.injEq] at hk
          rw [← hk.2]
          simp [reprBody, xmlEscape]
        all_goals exact absurd (by simp [zeroConsts, hf]) hz
      · rw [if_neg hf]

/-- C156 for pools without the number 0 among the constants. -/
theorem C156_partial (l r : Pool) {ms rows} (hm : prettyMergeConstants l r = .ok ms)
    (h : dualConstants E l r = .ok rows)
    (hz : ∀ m ∈ ms, ∀ n k, m.2.1 = some (n, k) ∨ m.2.2 = some (n, k) → k ∉ zeroConsts) :
    rows.length = ms.length ∧ ∀ (i : Nat) m row, ms[i]? = some m → rows[i]? = some row →
      row.index = m.1 ∧ ShowsConst E m.2.1 row.left ∧
      (match row.right with
        | some s => cellKey E m.2.1 ≠ cellKey E m.2.2 ∧ ShowsConst E m.2.2 s
        | none => cellKey E m.2.1 = cellKey E m.2.2) := by
  obtain ⟨h1, h2⟩ := C156_exact E l r hm h
  refine ⟨h1, fun i m row hi hr => ?_⟩
  obtain ⟨e1, e2, e3⟩ := h2 i m row hi hr
  have hmem := List.mem_of_getElem? hi
  refine ⟨e1, showsConst_of E _ e2 fun n k hk => hz m hmem n k (.inl hk), ?_⟩
  cases hs : row.right with
  | none => rw [hs] at e3; exact e3
  | some s =>
    rw [hs] at e3
    exact ⟨e3.1, showsConst_of E _ e3.2 fun n k hk => hz m hmem n k (.inr hk)⟩

/-- C156: the table of an unchanged pool shows type and value of every constant, in order. -/
theorem C156_unchanged (pool : Pool) (n : Nat) {rows : List (Nat × Str × Str)}
    (h : singleConstants E n pool = .ok rows) :
    rows.map Prod.fst = ((List.range pool.length).filter fun i => (pool[i]?.join).isSome).map (n + ·) ∧
    ∀ row ∈ rows, ∃ c t v, pool[row.1 - n]? = some (some c) ∧ n ≤ row.1 ∧
      constText E c = .ok (t, v) ∧ row.2 = (t, xmlEscape v) := by
  induction pool generalizing n rows with
  | nil =>
    simp only [singleConstants, Except.ok.injEq] at h
    subst h
    simp
  | cons o pool ih =>
    have shift : ∀ f : Option Const, ((List.range (f :: pool).length).filter fun i =>
        (((f :: pool)[i]?).join).isSome) = (if f.isSome then [0] else []) ++
          ((List.range pool.length).filter fun i => (pool[i]?.join).isSome).map (· + 1) := by
      intro f
      rw [List.length_cons, List.range_succ_eq_map, List.filter_cons, List.filter_map]
      cases f <;> simp [Function.comp_def, Nat.succ_eq_add_one]
    cases o with
    | none =>
      rw [singleConstants] at h
      obtain ⟨h1, h2⟩ := ih (n + 1) h
      refine ⟨?_, fun row hr => ?_⟩
      · rw [h1, shift]
        simp only [Option.isSome_none, Bool.false_eq_true, if_false, List.nil_append, List.map_map]
        apply List.map_congr_left
        intro a _
        simp only [Function.comp_apply]; omega
      · obtain ⟨c, t, v, e1, e2, e3⟩ := h2 row hr
        refine ⟨c, t, v, ?_, by omega, e3⟩
        rw [show row.1 - n = (row.1 - (n + 1)) + 1 by omega, List.getElem?_cons_succ]
        exact e1
    | some c =>
      rw [singleConstants] at h
      cases hc : constText E c with
      | error e => rw [hc] at h; simp at h
      | ok tv =>
        obtain ⟨t, v⟩ := tv
        cases hm : singleConstants E (n + 1) pool with
        | error e => rw [hc, hm] at h; simp at h
        | ok more =>
          rw [hc, hm] at h
          simp only [Except.ok.injEq] at h
          subst h
          obtain ⟨h1, h2⟩ := ih (n + 1) hm
          refine ⟨?_, fun row hr => ?_⟩
          · rw [List.map_cons, h1, shift]
            simp only [Option.isSome_some, if_true, List.cons_append, List.nil_append, List.map_cons,
              List.map_map]
            congr 1
            apply List.map_congr_left
            intro a _
            simp only [Function.comp_apply]; omega
          · rcases List.mem_cons.1 hr with rfl | hr
            · exact ⟨c, t, v, by simp, by omega, hc, rfl⟩
            · obtain ⟨c', t', v', e1, e2, e3⟩ := h2 row hr
              refine ⟨c', t', v', ?_, by omega, e3⟩
              rw [show row.1 - n = (row.1 - (n + 1)) + 1 by omega, List.getElem?_cons_succ]
              exact e1

example : dualConstants htmlEnv [none, some (.utf8 "a<b".toList), some (.cls 1)]
      [none, some (.utf8 "c".toList), some (.cls 1)] =
    .ok [⟨1, ("Utf8".toList, "a&lt;b".toList), some ("Utf8".toList, "c".toList)⟩,
      ⟨2, ("class".toList, "#1".toList), none⟩] := by decide +kernel
end

end Javatools
