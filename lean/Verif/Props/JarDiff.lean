import Verif.Model.JarDiff
import Verif.Props.ManifestDiff
import Verif.Props.ManifestDigest
import Verif.Props.ClassDiff
/-
C67: the comparison of JARs. C71: reports do not change the outcome. C72: equal JARs.
C73: which differences are always reported.
-/
namespace Javatools

namespace Change
variable {O P : Type}

/-! ### Larger option objects -/

theorem comapAll_eq (f : P → O) (cs : List (Change O)) : comapAll f cs = cs.map (comap f) := by
  induction cs with
  | nil => rfl
  | cons c cs ih => simp [comapAll, ih]

theorem comap_isChange (f : P → O) (c : Change O) : (c.comap f).isChange = c.isChange := by
  cases c <;> simp [comap, isChange, Hdr.comap]

theorem comap_isIgnored (f : P → O) (c : Change O) (o : P) :
    (c.comap f).isIgnored o = c.isIgnored (f o) := by
  induction c using ind with
  | hl h cmp b d => cases hi : h.ign <;> simp [comap, isIgnored, Hdr.comap, IgnoreRule.comap, hi]
  | hq h oc b d i => simp [comap, isIgnored]
  | hs h short b d cs ih =>
    have hall : allIgnored o (comapAll f cs) = allIgnored (f o) cs := by
      rw [Bool.eq_iff_iff, allIgnored_iff, allIgnored_iff, comapAll_eq]
      simp only [List.mem_map, forall_exists_index, and_imp, forall_apply_eq_imp_iff₂,
        comap_isChange]
      exact ⟨fun h2 c hc hch => (ih c hc) ▸ h2 c hc hch, fun h2 c hc hch => (ih c hc) ▸ h2 c hc hch⟩
    have he : (comapAll f cs).isEmpty = cs.isEmpty := by cases cs <;> rfl
    have hc := comap_isChange f (.super h short b d cs)
    simp only [comap] at hc
    cases hi : h.ign <;>
      simp [comap, isIgnored, Hdr.comap, IgnoreRule.comap, hi, hall, he, isChange]

theorem comap_check (f : P → O) (c : Change O) :
    (c.comap f).check = c.check.map (comap f) := by
  induction c using ind with
  | hl h cmp b d =>
    cases cmp with
    | none => rfl
    | some r => cases r with
      | error e => rfl
      | ok p => rfl
  | hq h oc b d i => rfl
  | hs h short b d cs ih =>
    cases short with
    | some x => simp [comap, check, Except.map, comapAll_eq]
    | none =>
      have : ∀ (cs : List (Change O)) (b : Bool), (∀ c ∈ cs, (c.comap f).check = c.check.map (comap f)) →
          checkAll (comapAll f cs) b =
            (checkAll cs b).map fun p => (comapAll f p.1, p.2) := by
        intro cs
        induction cs with
        | nil => intro b _; rfl
        | cons c cs ih2 =>
          intro b hcs
          simp only [comapAll, checkAll, hcs c (by simp)]
          cases hc : check c with
          | error e => rfl
          | ok c' =>
            simp only [Except.map]
            rw [comap_isChange, ih2 _ fun x hx => hcs x (by simp [hx])]
            cases checkAll cs (b || c'.isChange) with
            | error e => rfl
            | ok p => rfl
      simp only [comap, check, this cs false ih]
      cases checkAll cs false with
      | error e => rfl
      | ok p => rfl

end Change

/-! ### C67 -/

/-- What an entry is, going by its name. -/
inductive EntryKind where
  | manifest | sigfile | sigblock | cls | other
  deriving DecidableEq

/-- A file directly in META-INF with a name in capitals that ends in ".SF". -/
def SigFileName (up : Char → Str) (f : Str) : Prop :=
  ∃ x, f = "META-INF/".toList ++ x ∧ '/' ∉ x ∧ ∃ p, upperWith up f = p ++ ".SF".toList

/-- A file directly in META-INF with a name in capitals that ends in ".RSA", ".DSA" or ".EC", or
begins with "SIG-". -/
def SigBlockName (up : Char → Str) (f : Str) : Prop :=
  ∃ x, f = "META-INF/".toList ++ x ∧ '/' ∉ x ∧
    ((∃ p, upperWith up x = p ++ ".RSA".toList) ∨ (∃ p, upperWith up x = p ++ ".DSA".toList) ∨
     (∃ p, upperWith up x = p ++ ".EC".toList) ∨ (∃ p, upperWith up x = "SIG-".toList ++ p))

/-- The kind of an entry, the first that applies. -/
def KindOf (up : Char → Str) (f : Str) : EntryKind → Prop
  | .manifest => f = "META-INF/MANIFEST.MF".toList
  | .sigfile => f ≠ "META-INF/MANIFEST.MF".toList ∧ SigFileName up f
  | .sigblock => f ≠ "META-INF/MANIFEST.MF".toList ∧ ¬ SigFileName up f ∧ SigBlockName up f
  | .cls => f ≠ "META-INF/MANIFEST.MF".toList ∧ ¬ SigFileName up f ∧ ¬ SigBlockName up f ∧
      ∃ p, f = p ++ ".class".toList
  | .other => f ≠ "META-INF/MANIFEST.MF".toList ∧ ¬ SigFileName up f ∧ ¬ SigBlockName up f ∧
      ¬ ∃ p, f = p ++ ".class".toList

/-- The class of change objects for an event and a kind of entry. -/
def entryClass : Event → EntryKind → String
  | .same, .manifest => "JarManifestChange"
  | .same, .sigfile => "JarSignatureFileChange"
  | .same, .sigblock => "JarSignatureBlockFileChange"
  | .same, .cls => "JarClassChange"
  | .same, .other => "JarContentChange"
  | .diff, .manifest => "JarManifestChange"
  | .diff, .sigfile => "JarSignatureFileChange"
  | .diff, .sigblock => "JarSignatureBlockFileChange"
  | .diff, .cls => "JarClassChange"
  | .diff, .other => "JarGenericFileChange"
  | .left, .manifest => "JarContentRemoved"
  | .left, .sigfile => "JarSignatureFileRemoved"
  | .left, .sigblock => "JarSignatureBlockFileRemoved"
  | .left, .cls => "JarClassRemoved"
  | .left, .other => "JarContentRemoved"
  | .right, .manifest => "JarContentAdded"
  | .right, .sigfile => "JarSignatureFileAdded"
  | .right, .sigblock => "JarSignatureBlockFileAdded"
  | .right, .cls => "JarClassAdded"
  | .right, .other => "JarContentAdded"

def eventKind : Event → Kind
  | .left => .removal
  | .right => .addition
  | _ => .plain

theorem metaInf_slash (x : Str) : sMetaInf ++ '/' :: x = "META-INF/".toList ++ x := by
  have : "META-INF/".toList = sMetaInf ++ ['/'] := by decide +kernel
  rw [this]; simp

theorem matchesSigfile_name (up : Char → Str) (f : Str) :
    matchesSigfile up f = true ↔ SigFileName up f := by
  unfold matchesSigfile SigFileName
  rw [Bool.and_eq_true, inSigDir_iff, fnmatches_sf]
  simp only [metaInf_slash]
  exact ⟨fun ⟨⟨x, h1, h2⟩, h3⟩ => ⟨x, h1, h2, h3⟩, fun ⟨x, h1, h2, h3⟩ => ⟨⟨x, h1, h2⟩, h3⟩⟩

theorem matchesSigblock_iff (up : Char → Str) (f : Str) :
    matchesSigblock up f = true ↔ SigBlockName up f := by
  unfold matchesSigblock SigBlockName
  rw [Bool.and_eq_true, inSigDir_iff, fnmatches_sig]
  simp only [metaInf_slash]
  have hl : ("META-INF/".toList).length = 9 := by decide +kernel
  constructor
  · rintro ⟨⟨x, rfl, h2⟩, h3⟩
    rw [List.drop_left' hl] at h3
    exact ⟨x, rfl, h2, h3⟩
  · rintro ⟨x, rfl, h2, h3⟩
    rw [List.drop_left' hl]
    exact ⟨⟨x, rfl, h2⟩, h3⟩

theorem matchesClass_iff (f : Str) :
    fnmatches f ["*.class".toList] = true ↔ ∃ p, f = p ++ ".class".toList := by
  have e1 := C61_star_suffix f ".class".toList (by decide +kernel)
  rw [suffix_iff] at e1
  rw [← e1]
  have p1 : "*.class".toList = '*' :: ".class".toList := by decide +kernel
  rw [C61_fnmatches]
  simp only [List.mem_cons, List.not_mem_nil, or_false, ← C61_fnmatch]
  constructor
  · rintro ⟨p, rfl, _, h⟩; exact p1 ▸ h
  · intro h; exact ⟨_, rfl, by decide +kernel, p1 ▸ h⟩

/-- Every entry has exactly one kind. -/
theorem kindOf_unique (up : Char → Str) (f : Str) : ∃ k, KindOf up f k ∧ ∀ k', KindOf up f k' → k' = k := by
  by_cases h1 : f = "META-INF/MANIFEST.MF".toList
  · exact ⟨.manifest, h1, fun k' h => by cases k' <;> simp_all [KindOf]⟩
  by_cases h2 : SigFileName up f
  · exact ⟨.sigfile, ⟨h1, h2⟩, fun k' h => by cases k' <;> simp_all [KindOf]⟩
  by_cases h3 : SigBlockName up f
  · exact ⟨.sigblock, ⟨h1, h2, h3⟩, fun k' h => by cases k' <;> simp_all [KindOf]⟩
  by_cases h4 : ∃ p, f = p ++ ".class".toList
  · exact ⟨.cls, ⟨h1, h2, h3, h4⟩, fun k' h => by
      cases k'
      · exact absurd h h1
      · exact absurd h.2 h2
      · exact absurd h.2.2 h3
      · rfl
      · exact absurd h4 h.2.2.2⟩
  · exact ⟨.other, ⟨h1, h2, h3, h4⟩, fun k' h => by
      cases k'
      · exact absurd h h1
      · exact absurd h.2 h2
      · exact absurd h.2.2 h3
      · exact absurd h.2.2.2 h4
      · rfl⟩

/-- The manifest does not look like a signature or a class. -/
theorem manifest_plain (up : Char → Str) (hup : IsUpper up) :
    matchesSigfile up sManifestMf = false ∧ matchesSigblock up sManifestMf = false ∧
      fnmatches sManifestMf ["*.class".toList] = false := by
  have h1 : upperWith up sManifestMf = asciiUpper sManifestMf :=
    upperWith_ascii hup (by unfold AsciiText; decide +kernel)
  have h2 : upperWith up (sManifestMf.drop 9) = asciiUpper (sManifestMf.drop 9) :=
    upperWith_ascii hup (by unfold AsciiText; decide +kernel)
  refine ⟨?_, ?_, by decide +kernel⟩
  · unfold matchesSigfile
    rw [h1]
    decide +kernel
  · unfold matchesSigblock
    rw [h2]
    decide +kernel

/-- The branch that is taken. -/
def entryObject (E : JarEnv) (l r : Archive) (f : Str) : Event → EntryKind → Change DiffOpts
  | .same, .manifest => jarManifestChange E l r f false
  | .same, .sigfile => jarSignatureFileChange E l r f false
  | .same, .sigblock => jarSignatureBlockFileChange l r f false
  | .same, .cls => jarClassChange E l r f false
  | .same, .other =>
    jarContent "JarContentChange" "Jar Content" (.orElse (entryIgnored f)) f false []
  | .diff, .manifest => jarManifestChange E l r f true
  | .diff, .sigfile => jarSignatureFileChange E l r f true
  | .diff, .sigblock => jarSignatureBlockFileChange l r f true
  | .diff, .cls => jarClassChange E l r f true
  | .diff, .other => jarGenericFileChange l r f true
  | .left, .sigfile => jarOneSided "JarSignatureFileRemoved" "Jar Signature File Removed" .removal
      (.only signatureIgnored) f
  | .left, .sigblock => jarOneSided "JarSignatureBlockFileRemoved"
      "Jar Signature Block File Removed" .removal (.only signatureIgnored) f
  | .left, .cls => jarOneSided "JarClassRemoved" "Java Class Removed" .removal
      (.orElse (entryIgnored f)) f
  | .left, _ => jarOneSided "JarContentRemoved" "Jar Content Removed" .removal
      (.orElse (entryIgnored f)) f
  | .right, .sigfile => jarOneSided "JarSignatureFileAdded" "Jar Signature File Added" .addition
      (.only signatureIgnored) f
  | .right, .sigblock => jarOneSided "JarSignatureBlockFileAdded" "Jar Signature Block File Added"
      .addition (.only signatureIgnored) f
  | .right, .cls => jarOneSided "JarClassAdded" "Java Class Added" .addition
      (.orElse (entryIgnored f)) f
  | .right, _ => jarOneSided "JarContentAdded" "Jar Content Added" .addition
      (.orElse (entryIgnored f)) f

theorem jarEntryChange_eq (E : JarEnv) (hup : IsUpper E.up) (l r : Archive) (ev : Event) (f : Str)
    (k : EntryKind) (hk : KindOf E.up f k) :
    jarEntryChange E l r (ev, f) = entryObject E l r f ev k := by
  cases k with
  | manifest =>
    have hm : f = sManifestMf := hk
    subst hm
    obtain ⟨h1, h2, h3⟩ := manifest_plain E.up hup
    cases ev <;> simp only [jarEntryChange, h1, h2, h3, Bool.false_eq_true, if_false, if_true,
      entryObject]
  | sigfile =>
    have hm : f ≠ sManifestMf := hk.1
    have h1 := (matchesSigfile_name _ _).2 hk.2
    cases ev <;> simp only [jarEntryChange, hm, h1, if_false, if_true, entryObject]
  | sigblock =>
    have hm : f ≠ sManifestMf := hk.1
    have h1 : matchesSigfile E.up f = false := by
      rw [Bool.eq_false_iff]; exact fun h => hk.2.1 ((matchesSigfile_name _ _).1 h)
    have h2 := (matchesSigblock_iff _ _).2 hk.2.2
    cases ev <;> simp only [jarEntryChange, hm, h1, h2, Bool.false_eq_true, if_false, if_true,
      entryObject]
  | cls =>
    have hm : f ≠ sManifestMf := hk.1
    have h1 : matchesSigfile E.up f = false := by
      rw [Bool.eq_false_iff]; exact fun h => hk.2.1 ((matchesSigfile_name _ _).1 h)
    have h2 : matchesSigblock E.up f = false := by
      rw [Bool.eq_false_iff]; exact fun h => hk.2.2.1 ((matchesSigblock_iff _ _).1 h)
    have h3 := (matchesClass_iff _).2 hk.2.2.2
    cases ev <;> simp only [jarEntryChange, hm, h1, h2, h3, Bool.false_eq_true, if_false, if_true,
      entryObject]
  | other =>
    have hm : f ≠ sManifestMf := hk.1
    have h1 : matchesSigfile E.up f = false := by
      rw [Bool.eq_false_iff]; exact fun h => hk.2.1 ((matchesSigfile_name _ _).1 h)
    have h2 : matchesSigblock E.up f = false := by
      rw [Bool.eq_false_iff]; exact fun h => hk.2.2.1 ((matchesSigblock_iff _ _).1 h)
    have h3 : fnmatches f ["*.class".toList] = false := by
      rw [Bool.eq_false_iff]; exact fun h => hk.2.2.2 ((matchesClass_iff _).1 h)
    cases ev <;> simp only [jarEntryChange, hm, h1, h2, h3, Bool.false_eq_true, if_false,
      entryObject]

theorem jarContent_isChange (name label : String) (ign : IgnoreRule DiffOpts) (f : Str) (b : Bool)
    (cs : List (Change DiffOpts)) : (jarContent name label ign f b cs).isChange = b := rfl

theorem jarOneSided_isChange (name label : String) (k : Kind) (ign : IgnoreRule DiffOpts) (f : Str) :
    (jarOneSided name label k ign f).isChange = true := by cases k <;> rfl

/-- C67: the change object for an event has the class that the event and the kind of the entry
call for, names the entry, and is a change exactly unless the entries are the same. -/
theorem C67_entry (E : JarEnv) (hup : IsUpper E.up) (l r : Archive) (ev : Event) (f : Str)
    (k : EntryKind) (hk : KindOf E.up f k) :
    (jarEntryChange E l r (ev, f)).hdr.typeName = entryClass ev k ∧
    (jarEntryChange E l r (ev, f)).hdr.entry = some f ∧
    (jarEntryChange E l r (ev, f)).hdr.kind = eventKind ev ∧
    ((jarEntryChange E l r (ev, f)).isChange = true ↔ ev ≠ .same) := by
  rw [jarEntryChange_eq E hup l r ev f k hk]
  cases ev <;> cases k <;> refine ⟨rfl, rfl, rfl, ?_⟩ <;>
    simp only [entryObject, jarManifestChange, jarClassChange, jarSignatureFileChange,
      jarSignatureBlockFileChange, jarGenericFileChange, jarContent_isChange, jarOneSided_isChange,
      ne_eq, reduceCtorEq, not_false_eq_true, not_true_eq_false, Bool.false_eq_true]

/-- C67: the children of the comparison are the objects for the events of the archive comparison,
each once, grouped by class in the listed order. -/
theorem C67_collected (E : JarEnv) (l r : Archive) (evs : List (Event × Str))
    (h : compareZips E.order l r = (evs, none)) :
    ∃ cs, jarContentsChildren E l r = .ok cs ∧ (jarContentsChange E l r).collect = cs ∧
      cs.Perm (evs.map (jarEntryChange E l r)) ∧
      cs.Pairwise fun a b =>
        jarTypes.idxOf a.hdr.typeName ≤ jarTypes.idxOf b.hdr.typeName := by
  have hcs : jarContentsChildren E l r = .ok (iterateByType
      (fun c : Change DiffOpts => c.hdr.typeName) (evs.map (jarEntryChange E l r)) jarTypes) := by
    simp only [jarContentsChildren, h]
  refine ⟨_, hcs, ?_, C37_permutation _ _ _, ?_⟩
  · simp only [jarContentsChange, Change.collect, hcs, orRaise]
  · exact C37_order _ _ _

/-- C67: if the archive comparison raises, so does the comparison of the JARs. -/
theorem C67_raises (E : JarEnv) (l r : Archive) (evs : List (Event × Str)) (e : PyErr)
    (h : compareZips E.order l r = (evs, some e)) : (jarContentsChange E l r).check = .error e := by
  simp [jarContentsChange, jarContentsChildren, h, orRaise, raising, Change.check, Change.checkAll]

/-- C67 for two archive files: every file name of either archive has exactly one object, of the
right class. -/
theorem C67_partition (E : JarEnv) (hup : IsUpper E.up) (ho : IsSetOrder E.order) (l r : Archive)
    (hl : l.closed = false) (hr : r.closed = false) (hcl : Consistent l) (hcr : Consistent r)
    (hzl : l.exploded = false) (hzr : r.exploded = false) (hne : ¬ ([] ∈ names l ∧ [] ∈ names r)) :
    ∃ evs cs, jarContentsChildren E l r = .ok cs ∧ Partition l r evs ∧
      cs.Perm (evs.map (jarEntryChange E l r)) ∧ (cs.map fun c => c.hdr.entry).Nodup := by
  obtain ⟨evs, g, h1, h2, _⟩ := C55_partial E.order l r ho hl hr hcl hcr hzl hzr hne
  obtain ⟨cs, h3, _, h4, _⟩ := C67_collected E l r evs h1
  refine ⟨evs, cs, h3, h2, h4, ?_⟩
  rw [(h4.map _).nodup_iff, List.map_map]
  have : ((fun c : Change DiffOpts => c.hdr.entry) ∘ jarEntryChange E l r) =
      fun p => some p.2 := by
    funext ⟨ev, f⟩
    obtain ⟨k, hk, _⟩ := kindOf_unique E.up f
    exact (C67_entry E hup l r ev f k hk).2.1
  rw [this]
  have h5 := nodup_map_of_inj h2.once (f := fun x : Str => some x) (by simp)
  rwa [List.map_map] at h5

/-! After `check` -/

theorem check_single {O : Type} (h : Hdr O) (b : Bool) (d : Option Str) (x x' : Change O)
    (hx : x.check = .ok x') :
    Change.check (.super h none b d [x]) = .ok (.super h none x'.isChange none [x']) := by
  simp [Change.check, Change.checkAll, hx]

theorem single_isIgnored {O : Type} (h : Hdr O) (rule : O → Bool) (hk : h.kind = .plain)
    (hi : h.ign = .orElse rule) (d : Change O) (o : O) :
    Change.isIgnored o (.super h none d.isChange none [d]) =
      (rule o || (d.isChange && d.isIgnored o)) := by
  have h1 : Change.allIgnored o [d] = !(d.isChange && !d.isIgnored o) := by
    simp only [Change.allIgnored]
    cases (d.isChange && !Change.isIgnored o d) <;> simp
  have h2 : ∀ b, (Change.super h none b none [d]).isChange = b := fun b => by
    simp only [Change.isChange, hk]
  simp only [Change.isIgnored, hi, h1, h2]
  generalize d.isChange = b
  cases b <;> simp

/-- C67: added and removed entries stay changes, and entries that are the same do not become
changes. -/
theorem C67_checked_simple (E : JarEnv) (hup : IsUpper E.up) (l r : Archive) (ev : Event) (f : Str)
    (hev : ev ≠ .diff) : ∃ c, (jarEntryChange E l r (ev, f)).check = .ok c ∧
      (c.isChange = true ↔ ev ≠ .same) ∧ c.hdr = (jarEntryChange E l r (ev, f)).hdr ∧
      c.collect = [] := by
  obtain ⟨k, hk, _⟩ := kindOf_unique E.up f
  have hcont : ∀ (name label : String) (ign : IgnoreRule DiffOpts) (cs : List (Change DiffOpts)),
      ∃ c, (jarContent name label ign f false cs).check = .ok c ∧ c.isChange = false ∧
        c.hdr = (jarContent name label ign f false cs).hdr ∧ c.collect = [] :=
    fun _ _ _ _ => ⟨_, rfl, rfl, rfl, rfl⟩
  have hone : ∀ (name label : String) (kd : Kind) (ign : IgnoreRule DiffOpts), kd ≠ .plain →
      ∃ c, (jarOneSided name label kd ign f).check = .ok c ∧ c.isChange = true ∧
        c.hdr = (jarOneSided name label kd ign f).hdr ∧ c.collect = [] := by
    intro name label kd ign h
    cases kd
    · exact absurd rfl h
    · exact ⟨_, rfl, rfl, rfl, rfl⟩
    · exact ⟨_, rfl, rfl, rfl, rfl⟩
  rw [jarEntryChange_eq E hup l r ev f k hk]
  cases ev with
  | diff => exact absurd rfl hev
  | same =>
    have : ∀ c : Change DiffOpts, (∃ d, c.check = .ok d ∧ d.isChange = false ∧ d.hdr = c.hdr ∧
        d.collect = []) →
        ∃ d, c.check = .ok d ∧ (d.isChange = true ↔ Event.same ≠ Event.same) ∧ d.hdr = c.hdr ∧
          d.collect = [] := by
      rintro c ⟨d, h1, h2, h3, h4⟩
      exact ⟨d, h1, by simp only [h2, ne_eq, not_true_eq_false, Bool.false_eq_true], h3, h4⟩
    apply this
    cases k <;> exact hcont _ _ _ _
  | left =>
    have : ∀ c : Change DiffOpts, (∃ d, c.check = .ok d ∧ d.isChange = true ∧ d.hdr = c.hdr ∧
        d.collect = []) →
        ∃ d, c.check = .ok d ∧ (d.isChange = true ↔ Event.left ≠ Event.same) ∧ d.hdr = c.hdr ∧
          d.collect = [] := by
      rintro c ⟨d, h1, h2, h3, h4⟩
      exact ⟨d, h1, by simp only [h2, ne_eq, reduceCtorEq, not_false_eq_true], h3, h4⟩
    apply this
    cases k <;> exact hone _ _ _ _ (by simp)
  | right =>
    have : ∀ c : Change DiffOpts, (∃ d, c.check = .ok d ∧ d.isChange = true ∧ d.hdr = c.hdr ∧
        d.collect = []) →
        ∃ d, c.check = .ok d ∧ (d.isChange = true ↔ Event.right ≠ Event.same) ∧ d.hdr = c.hdr ∧
          d.collect = [] := by
      rintro c ⟨d, h1, h2, h3, h4⟩
      exact ⟨d, h1, by simp only [h2, ne_eq, reduceCtorEq, not_false_eq_true], h3, h4⟩
    apply this
    cases k <;> exact hone _ _ _ _ (by simp)

theorem readBoth_ok {α : Type} {f : Payload → Res α} {l r : Archive} {entry : Str} {p : α × α}
    {x y : Payload} (hx : l.openRead entry = .ok x) (hy : r.openRead entry = .ok y)
    (hfx : f x = .ok p.1) (hfy : f y = .ok p.2) : readBoth f l r entry = .ok p := by
  simp [readBoth, hx, hy, hfx, hfy]

/-- C67: a differing file of no special kind, or a signature block, is a change after `check`
exactly when what is read from the two archives differs. -/
theorem C67_checked_raw (E : JarEnv) (hup : IsUpper E.up) (l r : Archive) (f : Str) (k : EntryKind)
    (hk : KindOf E.up f k) (hraw : k = .other ∨ k = .sigblock) (x y : Payload)
    (hx : l.openRead f = .ok x) (hy : r.openRead f = .ok y) :
    ∃ c, (jarEntryChange E l r (.diff, f)).check = .ok c ∧ (c.isChange = true ↔ x ≠ y) ∧
      ∀ o, c.isIgnored o = true ↔
        if k = .other then fnmatches f o.jarEntries = true else o.attr "ignore_jar_signature" = true := by
  have hb : readBoth (fun p => .ok p) l r f = .ok (x, y) := readBoth_ok hx hy rfl rfl
  rw [jarEntryChange_eq E hup l r .diff f k hk]
  rcases hraw with rfl | rfl
  · have h1 : ∃ d, (genericFileChange (decide (x ≠ y))).check = .ok d ∧
        d.isChange = decide (x ≠ y) ∧ ∀ o, d.isIgnored o = false := by
      obtain ⟨t, ht⟩ := check_leaf (genericFileChange (decide (x ≠ y))).hdr "Generic File".toList
        (decide (x ≠ y)) "[data]".toList "[data]".toList false none
      exact ⟨_, ht, rfl, fun _ => rfl⟩
    obtain ⟨d, h1, h2, h3⟩ := h1
    refine ⟨.super (jarGenericFileChange l r f true).hdr none d.isChange none [d], ?_, ?_, ?_⟩
    · show (jarGenericFileChange l r f true).check = _
      unfold jarGenericFileChange
      rw [hb]
      exact check_single _ _ _ _ _ h1
    · show d.isChange = true ↔ _
      simp [h2]
    · intro o
      rw [if_pos rfl]
      rw [single_isIgnored _ (entryIgnored f) rfl rfl, h3, Bool.and_false, Bool.or_false]
      exact Iff.rfl
  · have h1 : ∃ d, (signatureBlockFileChange (decide (x ≠ y))).check = .ok d ∧
        d.isChange = decide (x ≠ y) := by
      obtain ⟨t, ht⟩ := check_leaf (signatureBlockFileChange (decide (x ≠ y))).hdr
        "Signature Block File".toList (decide (x ≠ y)) "[binary data]".toList
        "[binary data]".toList false none
      exact ⟨_, ht, rfl⟩
    obtain ⟨d, h1, h2⟩ := h1
    refine ⟨.super (jarSignatureBlockFileChange l r f true).hdr none d.isChange none [d], ?_, ?_, ?_⟩
    · show (jarSignatureBlockFileChange l r f true).check = _
      unfold jarSignatureBlockFileChange
      rw [hb]
      exact check_single _ _ _ _ _ h1
    · show d.isChange = true ↔ _
      simp [h2]
    · intro o
      rw [if_neg (by simp)]
      exact Iff.rfl

/-- C67: a differing class is a change after `check` exactly when the class comparison finds a
change. -/
theorem C67_checked_class (E : JarEnv) (hup : IsUpper E.up) (l r : Archive) (f : Str)
    (hk : KindOf E.up f .cls) (x y : Payload) (a b : ClassInfo) (d : Change Opts)
    (hx : l.openRead f = .ok x) (hy : r.openRead f = .ok y) (ha : unpackPayload E.lim x = .ok a)
    (hb : unpackPayload E.lim y = .ok b)
    (hd : (javaClassChange E.T E.lim E.depth a b).check = .ok d) :
    ∃ c, (jarEntryChange E l r (.diff, f)).check = .ok c ∧ c.isChange = d.isChange ∧
      ∀ o, c.isIgnored o = true ↔
        fnmatches f o.jarEntries = true ∨ (d.isChange = true ∧ d.isIgnored o.flags = true) := by
  have hr : readBoth (unpackPayload E.lim) l r f = .ok (a, b) := readBoth_ok hx hy ha hb
  rw [jarEntryChange_eq E hup l r .diff f _ hk]
  have h1 : ((javaClassChange E.T E.lim E.depth a b).comap DiffOpts.flags).check =
      .ok (d.comap DiffOpts.flags) := by rw [Change.comap_check, hd]; rfl
  refine ⟨.super (jarClassChange E l r f true).hdr none (d.comap DiffOpts.flags).isChange none
    [d.comap DiffOpts.flags], ?_, ?_, ?_⟩
  · show (jarClassChange E l r f true).check = _
    unfold jarClassChange
    rw [hr]
    exact check_single _ _ _ _ _ h1
  · exact Change.comap_isChange _ _
  · intro o
    rw [single_isIgnored _ (entryIgnored f) rfl rfl, Change.comap_isChange, Change.comap_isIgnored,
      Bool.or_eq_true, Bool.and_eq_true]
    exact Iff.rfl

/-- C67: a differing manifest or signature file is a change after `check` exactly when the two
differ as manifests. -/
theorem C67_checked_manifest (E : JarEnv) (hup : IsUpper E.up) (ho : IsSetOrder E.order)
    (l r : Archive) (f : Str) (k : EntryKind) (hk : KindOf E.up f k)
    (hman : k = .manifest ∨ k = .sigfile) (x y : Bytes) (a b : Manifest)
    (hx : l.openRead f = .ok (.bytes x)) (hy : r.openRead f = .ok (.bytes y))
    (ha : emptyManifest.parse x = .ok a) (hb : emptyManifest.parse y = .ok b) :
    ∃ c, (jarEntryChange E l r (.diff, f)).check = .ok c ∧
      (c.isChange = true ↔
        a.main ≠ b.main ∨ ∃ s, PyDict.get? a.subs s ≠ PyDict.get? b.subs s) := by
  have hr : readBoth parsePayload l r f = .ok (a, b) := readBoth_ok hx hy ha hb
  obtain ⟨d, h1, _, h2, _⟩ := C68_report E.order E.text a b ho (C68_parsed _ _ ha).1 (C68_parsed _ _ hb).1
  rw [jarEntryChange_eq E hup l r .diff f k hk, ← h2]
  rcases hman with rfl | rfl
  · refine ⟨.super (jarManifestChange E l r f true).hdr none d.isChange none [d], ?_, Iff.rfl⟩
    show (jarManifestChange E l r f true).check = _
    unfold jarManifestChange
    rw [hr]
    exact check_single _ _ _ _ _ h1
  · obtain ⟨d', h3, _, h4, _⟩ := (C68_signature E.order E.text a b).2 d h1
    refine ⟨.super (jarSignatureFileChange E l r f true).hdr none d'.isChange none [d'], ?_,
      by rw [← h4]; exact Iff.rfl⟩
    show (jarSignatureFileChange E l r f true).check = _
    unfold jarSignatureFileChange
    rw [hr]
    exact check_single _ _ _ _ _ h3

/-! ### C71 -/

/-- The exit status of a composite without rules of its own. -/
theorem exit_super {O : Type} (o : O) (h : Hdr O) (hk : h.kind = .plain) (hi : h.ign = .inherit)
    (b : Bool) (cs : List (Change O)) (hb : b = true ↔ ∃ c ∈ cs, c.isChange = true) :
    Change.exitStatus o (.super h none b none cs) =
      if ∃ c ∈ cs, Change.exitStatus o c = 1 then 1 else 0 := by
  have hex : ∀ c : Change O, Change.exitStatus o c = 1 ↔ c.isChange = true ∧ c.isIgnored o = false := by
    intro c
    unfold Change.exitStatus
    cases c.isChange <;> cases c.isIgnored o <;> simp
  have hsup : (Change.super h none b none cs).isChange = b := by simp only [Change.isChange, hk]
  have hiff : Change.exitStatus o (.super h none b none cs) = 1 ↔
      ∃ c ∈ cs, Change.exitStatus o c = 1 := by
    rw [hex, hsup]
    simp only [Change.isIgnored, hi, hsup]
    constructor
    · rintro ⟨h1, h2⟩
      obtain ⟨c, hc, hch⟩ := hb.1 h1
      have hne : cs.isEmpty = false := by cases cs <;> simp_all
      simp only [h1, not_true_eq_false, if_false, hne, Bool.false_eq_true] at h2
      rw [Bool.eq_false_iff, ne_eq, Change.allIgnored_iff] at h2
      obtain ⟨x, hx⟩ := Classical.not_forall.1 h2
      simp only [Classical.not_imp] at hx
      exact ⟨x, hx.1, (hex x).2 ⟨hx.2.1, Bool.eq_false_iff.2 hx.2.2⟩⟩
    · rintro ⟨c, hc, h1⟩
      obtain ⟨h2, h3⟩ := (hex c).1 h1
      have hbt := hb.2 ⟨c, hc, h2⟩
      have hne : cs.isEmpty = false := by cases cs <;> simp_all
      refine ⟨hbt, ?_⟩
      simp only [hbt, not_true_eq_false, if_false, hne, Bool.false_eq_true]
      rw [Bool.eq_false_iff, ne_eq, Change.allIgnored_iff]
      intro h4
      rw [h4 c hc h2] at h3
      exact absurd h3 (by simp)
  by_cases h1 : ∃ c ∈ cs, Change.exitStatus o c = 1
  · rw [if_pos h1, hiff]; exact h1
  · rw [if_neg h1]
    have := mt hiff.1 h1
    unfold Change.exitStatus at this ⊢
    split
    · rfl
    · rename_i hc; exact absurd (by rw [if_neg hc]) this

theorem squash_exit {O : Type} (c : Change O) (o : O) :
    Change.exitStatus o (c.squash false (some o)) = Change.exitStatus o c := by
  simp [Change.exitStatus, Change.squash_isChange, Change.squash_isIgnored]

/-- The loop of the report decides what the plain loop decides. -/
theorem reportAll_eq (o : DiffOpts) (cs : List (Change DiffOpts)) (b : Bool) :
    (∀ e, Change.checkAll cs b = .error e → reportAll o cs b = .error e) ∧
    ∀ cs' b', Change.checkAll cs b = .ok (cs', b') → ∃ cs'', reportAll o cs b = .ok (cs'', b') ∧
      cs''.map (Change.exitStatus o) = cs'.map (Change.exitStatus o) ∧
      cs''.map Change.isChange = cs'.map Change.isChange := by
  induction cs generalizing b with
  | nil =>
    refine ⟨fun e h => by simp [Change.checkAll] at h, fun cs' b' h => ?_⟩
    simp only [Change.checkAll, Except.ok.injEq, Prod.mk.injEq] at h
    obtain ⟨rfl, rfl⟩ := h
    exact ⟨[], rfl, rfl, rfl⟩
  | cons c cs ih =>
    simp only [Change.checkAll, reportAll]
    cases hc : c.check with
    | error e => simp
    | ok c1 =>
      simp only
      obtain ⟨h1, h2⟩ := ih (b || c1.isChange)
      cases hr : Change.checkAll cs (b || c1.isChange) with
      | error e => simp [h1 e hr]
      | ok p =>
        obtain ⟨cs1, b1⟩ := p
        obtain ⟨cs2, h3, h4, h5⟩ := h2 cs1 b1 hr
        refine ⟨by simp, fun cs' b' h => ?_⟩
        simp only [Except.ok.injEq, Prod.mk.injEq] at h
        obtain ⟨rfl, rfl⟩ := h
        rw [h3]
        refine ⟨_, rfl, ?_, ?_⟩
        · simp only [List.map_cons, h4, List.cons.injEq, and_true]
          split
          · exact squash_exit _ _
          · rfl
        · simp only [List.map_cons, h5, List.cons.injEq, and_true]
          split
          · exact Change.squash_isChange _ _ _
          · rfl

theorem jarTypeChange_check (l r : Archive) : ∃ t, (jarTypeChange l r).check = .ok t ∧
    (t.isChange = true ↔ l.exploded ≠ r.exploded) ∧ ∀ o, t.isIgnored o = false := by
  obtain ⟨d, hd⟩ := check_leaf (jarTypeChange l r).hdr "Jar type".toList
    (!decide (l.exploded = r.exploded))
    (if l.exploded then "exploded JAR".toList else "zipped JAR file".toList)
    (if r.exploded then "exploded JAR".toList else "zipped JAR file".toList) false none
  refine ⟨_, hd, ?_, fun _ => rfl⟩
  show (!decide (l.exploded = r.exploded)) = true ↔ _
  simp

/-- The comparison of two JARs, with its checked children. -/
theorem jarChange_check (E : JarEnv) (l r : Archive) (t : Change DiffOpts)
    (ht : (jarTypeChange l r).check = .ok t) :
    (jarChange E l r).check = match jarContentsChildren E l r with
      | .error e => .error e
      | .ok cs => match Change.checkAll cs false with
        | .error e => .error e
        | .ok (cs', c) => .ok (.super (jarChange E l r).hdr none (false || t.isChange || c) none
            [t, .super (jarContentsChange E l r).hdr none c none cs']) := by
  unfold jarChange
  simp only [Change.check, Change.checkAll, ht, jarContentsChange]
  cases hc : jarContentsChildren E l r with
  | error e => simp [orRaise, raising, Change.checkAll, Change.check]
  | ok cs =>
    simp only [orRaise]
    cases Change.checkAll cs false with
    | error e => rfl
    | ok p => rfl

theorem exists_map_eq {α β γ : Type} (f : α → γ) (g : β → γ) (as : List α) (bs : List β)
    (h : as.map f = bs.map g) (c : γ) : (∃ a ∈ as, f a = c) ↔ ∃ b ∈ bs, g b = c := by
  rw [← List.mem_map, ← List.mem_map, h]

/-- The exit status of a checked comparison of JARs. -/
theorem jar_exit (o : DiffOpts) (h1 h2 : Hdr DiffOpts) (k1 : h1.kind = .plain)
    (i1 : h1.ign = .inherit) (k2 : h2.kind = .plain) (i2 : h2.ign = .inherit)
    (t : Change DiffOpts) (cs : List (Change DiffOpts)) (c : Bool)
    (hc : c = true ↔ ∃ x ∈ cs, x.isChange = true) :
    Change.exitStatus o (.super h1 none (false || t.isChange || c) none [t, .super h2 none c none cs])
      = if Change.exitStatus o t = 1 ∨ ∃ x ∈ cs, Change.exitStatus o x = 1 then 1 else 0 := by
  have hs : (Change.super h2 none c none cs).isChange = c := by simp only [Change.isChange, k2]
  rw [exit_super o h1 k1 i1 _ _ (by simp [hs])]
  simp only [List.mem_cons, List.not_mem_nil, or_false, exists_eq_or_imp, exists_eq_left,
    exit_super o h2 k2 i2 c cs hc]
  congr 1
  simp

/-- C71: with reports the exit status is what it is without them, and so is the exception that is
raised, if any. -/
theorem C71_reports (E : JarEnv) (l r : Archive) (o : DiffOpts) :
    jarReportStatus E l r o = jarDiffStatus E l r o := by
  obtain ⟨t, ht, _⟩ := jarTypeChange_check l r
  unfold jarReportStatus jarDiffStatus jarReportCheck
  rw [jarChange_check E l r t ht, ht]
  simp only
  cases hc : jarContentsChildren E l r with
  | error e => rfl
  | ok cs =>
    simp only
    obtain ⟨h1, h2⟩ := reportAll_eq o cs false
    cases hr : Change.checkAll cs false with
    | error e => simp only [h1 e hr]
    | ok p =>
      obtain ⟨cs', c⟩ := p
      obtain ⟨cs'', h3, h4, h5⟩ := h2 cs' c hr
      have hb := (Change.checkAll_ok _ _ _ _ hr).2.2.1
      simp only [Bool.false_eq_true, false_or] at hb
      simp only [h3, Except.map]
      rw [jar_exit o _ _ rfl rfl rfl rfl t cs' c hb, jar_exit o _ _ rfl rfl rfl rfl t cs'' c
        (hb.trans (exists_map_eq _ _ _ _ h5 true).symm)]
      simp only [exists_map_eq _ _ _ _ h4 1]

/-! ### C72 and C73 -/

/-- An option covers the entry: signatures by their own option, everything else by the patterns. -/
def EntryCovered (o : DiffOpts) (f : Str) : EntryKind → Prop
  | .sigfile => o.attr "ignore_jar_signature" = true
  | .sigblock => o.attr "ignore_jar_signature" = true
  | _ => fnmatches f o.jarEntries = true

/-- When the comparison ends, its status says whether some entry is a change that is not ignored. -/
theorem C73_status (E : JarEnv) (l r : Archive) (o : DiffOpts) (st : Nat) (evs : List (Event × Str))
    (hz : l.exploded = r.exploded) (he : compareZips E.order l r = (evs, none))
    (h : jarDiffStatus E l r o = .ok st) :
    (∀ p ∈ evs, ∃ c, (jarEntryChange E l r p).check = .ok c) ∧
    (st = 0 ∨ st = 1) ∧
    (st = 1 ↔ ∃ p ∈ evs, ∃ c, (jarEntryChange E l r p).check = .ok c ∧ c.isChange = true ∧
      c.isIgnored o = false) := by
  obtain ⟨t, ht, ht2, ht3⟩ := jarTypeChange_check l r
  have htc : Change.exitStatus o t ≠ 1 := by
    unfold Change.exitStatus
    have : t.isChange = false := by rw [Bool.eq_false_iff, ne_eq, ht2]; simp [hz]
    simp [this]
  obtain ⟨cs, h1, _, h2, _⟩ := C67_collected E l r evs he
  unfold jarDiffStatus at h
  rw [jarChange_check E l r t ht, h1] at h
  simp only at h
  cases hr : Change.checkAll cs false with
  | error e => rw [hr] at h; simp [Except.map] at h
  | ok p =>
    obtain ⟨cs', c⟩ := p
    rw [hr] at h
    obtain ⟨h3, h4, h5, _⟩ := Change.checkAll_ok _ _ _ _ hr
    simp only [Bool.false_eq_true, false_or] at h5
    simp only [Except.map, Except.ok.injEq] at h
    rw [jar_exit o _ _ rfl rfl rfl rfl t cs' c h5] at h
    have hmem : ∀ x, x ∈ cs ↔ ∃ p ∈ evs, jarEntryChange E l r p = x := fun x => by
      rw [h2.mem_iff, List.mem_map]
    have hex : ∀ c : Change DiffOpts,
        Change.exitStatus o c = 1 ↔ c.isChange = true ∧ c.isIgnored o = false := by
      intro c
      unfold Change.exitStatus
      cases c.isChange <;> cases c.isIgnored o <;> simp
    refine ⟨fun p hp => ?_, by rw [← h]; split <;> simp, ?_⟩
    · obtain ⟨c', _, hc'⟩ := h4 _ ((hmem _).2 ⟨p, hp, rfl⟩)
      exact ⟨c', hc'⟩
    · rw [← h]
      simp only [htc, false_or, ite_eq_left_iff, Nat.zero_ne_one, imp_false, Classical.not_not]
      constructor
      · rintro ⟨x, hx, hx1⟩
        obtain ⟨c0, hc0, hc1⟩ := h3 x hx
        obtain ⟨p, hp, rfl⟩ := (hmem _).1 hc0
        exact ⟨p, hp, x, hc1, (hex x).1 hx1⟩
      · rintro ⟨p, hp, c1, hc1, hc2⟩
        obtain ⟨x, hx, hx1⟩ := h4 _ ((hmem _).2 ⟨p, hp, rfl⟩)
        rw [hc1, Except.ok.injEq] at hx1
        subst hx1
        exact ⟨c1, hx, (hex c1).2 hc2⟩

theorem entryObject_ign (E : JarEnv) (l r : Archive) (f : Str) (ev : Event) (k : EntryKind) :
    (entryObject E l r f ev k).hdr.ign =
      match k with
      | .sigfile => .only signatureIgnored
      | .sigblock => .only signatureIgnored
      | _ => .orElse (entryIgnored f) := by
  cases ev <;> cases k <;> rfl

theorem entryObject_super (E : JarEnv) (l r : Archive) (f : Str) (ev : Event) (k : EntryKind) :
    ∃ h b cs, entryObject E l r f ev k = .super h none b none cs := by
  cases ev <;> cases k <;> exact ⟨_, _, _, rfl⟩

theorem check_super {O : Type} {h : Hdr O} {b : Bool} {d : Option Str} {cs : List (Change O)}
    {c : Change O} (hc : Change.check (.super h none b d cs) = .ok c) :
    ∃ b' d' cs', c = .super h none b' d' cs' := by
  simp only [Change.check] at hc
  split at hc
  · simp at hc
  · simp only [Except.ok.injEq] at hc
    exact ⟨_, _, _, hc.symm⟩

/-- A covered entry is ignored after a check. -/
theorem covered_ignored (E : JarEnv) (hup : IsUpper E.up) (l r : Archive) (ev : Event) (f : Str)
    (k : EntryKind) (hk : KindOf E.up f k) (o : DiffOpts) (hc : EntryCovered o f k) (c : Change DiffOpts)
    (h : (jarEntryChange E l r (ev, f)).check = .ok c) : c.isIgnored o = true := by
  have hh := Change.check_hdr _ _ h
  rw [jarEntryChange_eq E hup l r ev f k hk] at h hh
  have hi := entryObject_ign E l r f ev k
  rw [← hh] at hi
  obtain ⟨h0, b0, cs0, hs⟩ := entryObject_super E l r f ev k
  rw [hs] at h
  obtain ⟨b, d, cs, rfl⟩ := check_super h
  cases k <;> simp only [Change.hdr] at hi <;> simp only [Change.isIgnored, hi] <;>
    simp only [EntryCovered] at hc <;> simp [signatureIgnored, entryIgnored, hc]

/-- An added, removed or same entry that is not covered is not ignored after a check. -/
theorem uncovered (E : JarEnv) (hup : IsUpper E.up) (l r : Archive) (ev : Event) (f : Str)
    (k : EntryKind) (hk : KindOf E.up f k) (o : DiffOpts) (hc : ¬ EntryCovered o f k) (hev : ev ≠ .diff)
    (c : Change DiffOpts) (h : (jarEntryChange E l r (ev, f)).check = .ok c) :
    c.isIgnored o = false := by
  obtain ⟨c', h1, _, _, hcol⟩ := C67_checked_simple E hup l r ev f hev
  rw [h, Except.ok.injEq] at h1
  subst h1
  have hh := Change.check_hdr _ _ h
  rw [jarEntryChange_eq E hup l r ev f k hk] at h hh
  have hi := entryObject_ign E l r f ev k
  rw [← hh] at hi
  obtain ⟨h0, b0, cs0, hs⟩ := entryObject_super E l r f ev k
  rw [hs] at h
  obtain ⟨b, d, cs, rfl⟩ := check_super h
  simp only [Change.collect] at hcol
  subst hcol
  cases k <;> simp only [Change.hdr] at hi <;> simp only [Change.isIgnored, hi] <;>
    simp only [EntryCovered] at hc <;> simp [signatureIgnored, entryIgnored, hc]

/-- Two archives as `zipfile` opens them, with correct sizes and check sums. -/
structure ReadableJars (l r : Archive) : Prop where
  leftOpen : l.closed = false
  rightOpen : r.closed = false
  leftConsistent : Consistent l
  rightConsistent : Consistent r
  leftZip : l.exploded = false
  rightZip : r.exploded = false
  named : ¬ ([] ∈ names l ∧ [] ∈ names r)

/-- The two archives have the same names, and files of the same name have the same content. -/
def SameFiles (l r : Archive) : Prop :=
  (∀ f, f ∈ names l ↔ f ∈ names r) ∧
  ∀ f b c, ¬ IsDirName f → HasContent l f b → HasContent r f c → b = c

/-- C72: two JARs with the same entries give exit status 0, whatever is or is not ignored, and
whatever the contents are. -/
theorem C72_same (E : JarEnv) (hup : IsUpper E.up) (ho : IsSetOrder E.order) (l r : Archive)
    (hlr : ReadableJars l r) (hs : SameFiles l r) (o : DiffOpts) :
    jarDiffStatus E l r o = .ok 0 ∧ jarReportStatus E l r o = .ok 0 := by
  suffices h : jarDiffStatus E l r o = .ok 0 from ⟨h, by rw [C71_reports, h]⟩
  obtain ⟨evs, _, h1, h2, _⟩ := C55_partial E.order l r ho hlr.leftOpen hlr.rightOpen
    hlr.leftConsistent hlr.rightConsistent hlr.leftZip hlr.rightZip hlr.named
  have hsame : ∀ p ∈ evs, p.1 = .same := by
    rintro ⟨ev, f⟩ hp
    cases ev with
    | same => rfl
    | left => have := (h2.left f).1 hp; exact absurd ((hs.1 f).1 this.1) this.2
    | right => have := (h2.right f).1 hp; exact absurd ((hs.1 f).2 this.2) this.1
    | diff =>
      obtain ⟨hd, b, c, hb, hc, hne⟩ := (h2.diff f).1 hp
      exact absurd (hs.2 f b c hd hb hc) hne
  have hok : ∀ p ∈ evs, ∃ c, (jarEntryChange E l r p).check = .ok c ∧ c.isChange = false := by
    rintro ⟨ev, f⟩ hp
    have hev : ev = .same := hsame _ hp
    obtain ⟨c, hc, hc1, _⟩ := C67_checked_simple E hup l r ev f (by rw [hev]; simp)
    exact ⟨c, hc, by rw [Bool.eq_false_iff, ne_eq, hc1, hev]; simp⟩
  have hst : ∃ st, jarDiffStatus E l r o = .ok st := by
    obtain ⟨t, ht, _⟩ := jarTypeChange_check l r
    obtain ⟨cs, h3, _, h4, _⟩ := C67_collected E l r evs h1
    unfold jarDiffStatus
    rw [jarChange_check E l r t ht, h3]
    have hall : ∀ (cs : List (Change DiffOpts)) (b : Bool), (∀ c ∈ cs, ∃ c', c.check = .ok c') →
        ∃ p, Change.checkAll cs b = .ok p := by
      intro cs
      induction cs with
      | nil => intro b _; exact ⟨_, rfl⟩
      | cons c cs ih =>
        intro b hb
        obtain ⟨c', hc'⟩ := hb c (by simp)
        obtain ⟨p, hp⟩ := ih (b || c'.isChange) fun x hx => hb x (by simp [hx])
        simp [Change.checkAll, hc', hp]
    obtain ⟨p, hp⟩ := hall cs false fun c hc => by
      rw [h4.mem_iff, List.mem_map] at hc
      obtain ⟨q, hq, rfl⟩ := hc
      obtain ⟨c', hc', _⟩ := hok q hq
      exact ⟨c', hc'⟩
    simp only [hp, Except.map]
    exact ⟨_, rfl⟩
  obtain ⟨st, hst⟩ := hst
  obtain ⟨_, h5, h6⟩ := C73_status E l r o st evs (by rw [hlr.leftZip, hlr.rightZip]) h1 hst
  rcases h5 with rfl | rfl
  · exact hst
  · obtain ⟨p, hp, c, hc, hch, _⟩ := h6.1 rfl
    obtain ⟨c', hc', hch'⟩ := hok p hp
    rw [hc, Except.ok.injEq] at hc'
    rw [← hc', hch] at hch'
    exact absurd hch' (by simp)

/-- C73: an entry that only one JAR has makes the status 1, unless an option covers it. -/
theorem C73_one_sided (E : JarEnv) (hup : IsUpper E.up) (ho : IsSetOrder E.order) (l r : Archive)
    (hlr : ReadableJars l r) (o : DiffOpts) (st : Nat) (h : jarDiffStatus E l r o = .ok st) (f : Str)
    (k : EntryKind) (hk : KindOf E.up f k) (hf : ¬ (f ∈ names l ↔ f ∈ names r))
    (hc : ¬ EntryCovered o f k) : st = 1 := by
  obtain ⟨evs, _, h1, h2, _⟩ := C55_partial E.order l r ho hlr.leftOpen hlr.rightOpen
    hlr.leftConsistent hlr.rightConsistent hlr.leftZip hlr.rightZip hlr.named
  obtain ⟨_, _, h6⟩ := C73_status E l r o st evs (by rw [hlr.leftZip, hlr.rightZip]) h1 h
  have hev : ∃ ev, ev ≠ .diff ∧ ev ≠ .same ∧ (ev, f) ∈ evs := by
    by_cases hl : f ∈ names l
    · exact ⟨.left, by simp, by simp, (h2.left f).2 ⟨hl, fun hr => hf ⟨fun _ => hr, fun _ => hl⟩⟩⟩
    · refine ⟨.right, by simp, by simp, (h2.right f).2 ⟨hl, Classical.byContradiction fun hr => ?_⟩⟩
      exact hf ⟨fun h => absurd h hl, fun h => absurd h hr⟩
  obtain ⟨ev, he1, he2, he3⟩ := hev
  obtain ⟨c, hc1, hc2, _⟩ := C67_checked_simple E hup l r ev f he1
  exact h6.2 ⟨_, he3, c, hc1, hc2.2 he2, uncovered E hup l r ev f k hk o hc he1 c hc1⟩

theorem openRead_zip {a : Archive} {f : Str} {b : Bytes} (ho : a.closed = false)
    (hc : Consistent a) (hz : a.exploded = false) (hd : ¬ IsDirName f) (hb : HasContent a f b) :
    a.openRead f = .ok (.bytes b) := by
  obtain ⟨e, he, hr⟩ := (hasContent_iff _ _ _).1 hb
  rw [isDirName_iff] at hd
  obtain ⟨h1, h2⟩ := consistent_find hc he hd
  simp [Archive.openRead, he, hz, ho, h1, h2, hr]

/-- C73: a file of no special kind, or a signature block, with different contents in the two JARs
makes the status 1, unless an option covers it. -/
theorem C73_content (E : JarEnv) (hup : IsUpper E.up) (ho : IsSetOrder E.order) (l r : Archive)
    (hlr : ReadableJars l r) (o : DiffOpts) (st : Nat) (h : jarDiffStatus E l r o = .ok st) (f : Str)
    (k : EntryKind) (hk : KindOf E.up f k) (hraw : k = .other ∨ k = .sigblock) (x y : Bytes)
    (hd : ¬ IsDirName f) (hx : HasContent l f x) (hy : HasContent r f y) (hxy : x ≠ y)
    (hc : ¬ EntryCovered o f k) : st = 1 := by
  obtain ⟨evs, _, h1, h2, _⟩ := C55_partial E.order l r ho hlr.leftOpen hlr.rightOpen
    hlr.leftConsistent hlr.rightConsistent hlr.leftZip hlr.rightZip hlr.named
  obtain ⟨_, _, h6⟩ := C73_status E l r o st evs (by rw [hlr.leftZip, hlr.rightZip]) h1 h
  obtain ⟨c, hc1, hc2, hc3⟩ := C67_checked_raw E hup l r f k hk hraw (.bytes x) (.bytes y)
    (openRead_zip hlr.leftOpen hlr.leftConsistent hlr.leftZip hd hx)
    (openRead_zip hlr.rightOpen hlr.rightConsistent hlr.rightZip hd hy)
  refine h6.2 ⟨_, (h2.diff f).2 ⟨hd, x, y, hx, hy, hxy⟩, c, hc1, hc2.2 (by simpa using hxy), ?_⟩
  rw [Bool.eq_false_iff, ne_eq, hc3]
  rcases hraw with rfl | rfl
  · rw [if_pos rfl]; exact hc
  · rw [if_neg (by simp)]; exact hc

/-- C73: if options cover every entry that the two JARs do not have alike, the status is 0. -/
theorem C73_covered (E : JarEnv) (hup : IsUpper E.up) (ho : IsSetOrder E.order) (l r : Archive)
    (hlr : ReadableJars l r) (o : DiffOpts) (st : Nat) (h : jarDiffStatus E l r o = .ok st)
    (hc : ∀ f k, KindOf E.up f k →
      (¬ (f ∈ names l ↔ f ∈ names r) ∨
        ¬ IsDirName f ∧ ∃ b c, HasContent l f b ∧ HasContent r f c ∧ b ≠ c) → EntryCovered o f k) :
    st = 0 := by
  obtain ⟨evs, _, h1, h2, _⟩ := C55_partial E.order l r ho hlr.leftOpen hlr.rightOpen
    hlr.leftConsistent hlr.rightConsistent hlr.leftZip hlr.rightZip hlr.named
  obtain ⟨_, h5, h6⟩ := C73_status E l r o st evs (by rw [hlr.leftZip, hlr.rightZip]) h1 h
  rcases h5 with h5 | h5
  · exact h5
  · obtain ⟨⟨ev, f⟩, hp, c, hc1, hch, hci⟩ := h6.1 h5
    obtain ⟨k, hk, _⟩ := kindOf_unique E.up f
    have hcov : ev ≠ .same → EntryCovered o f k := by
      intro hne
      refine hc f k hk ?_
      cases ev with
      | same => exact absurd rfl hne
      | left => have := (h2.left f).1 hp; exact .inl fun hf => this.2 (hf.1 this.1)
      | right => have := (h2.right f).1 hp; exact .inl fun hf => this.1 (hf.2 this.2)
      | diff => exact .inr ((h2.diff f).1 hp)
    by_cases hev : ev = .same
    · obtain ⟨c', hc', hch', _⟩ := C67_checked_simple E hup l r ev f (by rw [hev]; simp)
      rw [hc1, Except.ok.injEq] at hc'
      subst hc'
      exact absurd hev (hch'.1 hch)
    · have := covered_ignored E hup l r ev f k hk o (hcov hev) c hc1
      rw [hci] at this
      exact absurd this (by simp)

/-! Concrete comparisons -/

def demoEnv : JarEnv :=
  { T := noTexts, lim := 9, depth := 9, order := dedup, text := fun _ => [], up := upLongS }

def jarOpts (flags : Opts) (entries : List Str) : DiffOpts :=
  { flags := flags, manifestKeys := [], jarEntries := entries, filenames := [] }

/-- A manifest, a signature file and block, a text and a class that cannot be read. -/
def demoJar (text sig block : Bytes) : Archive :=
  zipOf false
    [("META-INF/MANIFEST.MF".toList, [65, 58, 32, 66, 10, 10]), ("META-INF/A.SF".toList, sig),
     ("META-INF/A.rsa".toList, block), ("doc/".toList, []), ("doc/a.txt".toList, text),
     ("B.class".toList, [1, 2])]

example : [("META-INF/MANIFEST.MF", EntryKind.manifest), ("META-INF/a.sf", .sigfile),
      ("META-INF/SIG-x.class", .sigblock), ("META-INF/A.Ec", .sigblock), ("a/B.class", .cls),
      ("META-INF/x/A.SF", .other), ("B.CLASS", .other)].all (fun p =>
    (jarEntryChange demoEnv (zipOf false []) (zipOf false []) (.same, p.1.toList)).hdr.typeName ==
      entryClass .same p.2) = true := by decide +kernel

example : jarDiffStatus demoEnv (demoJar [1] [65, 58, 32, 66, 10] [1])
    (demoJar [1] [65, 58, 32, 66, 10] [1]) (jarOpts [] []) = .ok 0 := by decide +kernel

example : jarDiffStatus demoEnv (demoJar [1] [65, 58, 32, 66, 10] [1])
      (demoJar [2] [65, 58, 32, 66, 10] [1]) (jarOpts [] []) = .ok 1 ∧
    jarDiffStatus demoEnv (demoJar [1] [65, 58, 32, 66, 10] [1])
      (demoJar [2] [65, 58, 32, 66, 10] [1]) (jarOpts [] ["*.txt".toList]) = .ok 0 := by
  decide +kernel

example : jarDiffStatus demoEnv (demoJar [1] [65, 58, 32, 66, 10] [1])
      (demoJar [1] [65, 58, 32, 67, 10] [2]) (jarOpts [] ["*".toList]) = .ok 1 ∧
    jarDiffStatus demoEnv (demoJar [1] [65, 58, 32, 66, 10] [1])
      (demoJar [1] [65, 58, 32, 67, 10] [2]) 
      (jarOpts [("ignore_jar_signature".toList, true)] []) = .ok 0 := by
  decide +kernel

/-- A class that differs and cannot be read. -/
example : jarDiffStatus demoEnv (zipOf false [("B.class".toList, [1, 2, 3, 4])])
    (zipOf false [("B.class".toList, [1, 2, 3, 5])]) (jarOpts [] ["*".toList]) = .error .classUnpack := by
  decide +kernel

def tinyJar (c : Spec.ClassS) (more : Bytes) : Archive :=
  zipOf false [("B.class".toList, c.enc ++ more)]

def tinyClass (access : Nat) : Spec.ClassS where
  minor := 0
  major := 52
  pool := [.utf8 [65], .cls 1]
  access := access
  this := 2
  super := 0
  interfaces := []
  fields := []
  methods := []
  attrs := []

/-- A class with other access flags, and one that only has bytes after its end, with and without
reports. -/
example : jarDiffStatus demoEnv (tinyJar (tinyClass 1) []) (tinyJar (tinyClass 0) [])
      (jarOpts [] []) = .ok 1 ∧
    jarReportStatus demoEnv (tinyJar (tinyClass 1) []) (tinyJar (tinyClass 0) [])
      (jarOpts [] []) = .ok 1 ∧
    jarReportStatus demoEnv (tinyJar (tinyClass 1) []) (tinyJar (tinyClass 1) [0])
      (jarOpts [] []) = .ok 0 := by
  decide +kernel

example : ReadableJars (demoJar [1] [2] [3]) (demoJar [1] [2] [4]) :=
  ⟨rfl, rfl, zipOf_consistent _ _, zipOf_consistent _ _, rfl, rfl, by decide +kernel⟩

end Javatools
