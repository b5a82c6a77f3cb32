import Verif.Props.ClassDiff
/-
C43: the ignore options of the class comparison.
-/
namespace Javatools
open Spec Change

namespace Change
variable {O : Type}

/-- `x` is a leaf of the tree that `check` compares: reached through composites that check their
children. -/
inductive LeafOf (x : Change O) : Change O → Prop where
  | self (h : Hdr O) (cmp : Option (Res (Bool × Option Str))) (b : Bool) (d : Option Str)
      (e : x = .leaf h cmp b d) : LeafOf x (.leaf h cmp b d)
  | child (h : Hdr O) (b : Bool) (d : Option Str) (cs : List (Change O)) (c : Change O)
      (hc : c ∈ cs) (hl : LeafOf x c) : LeafOf x (.super h none b d cs)

/-- Trees without overridden composites, whose leaves satisfy `P`; a composite that decides
without its children has children that say "unchanged" as long as they are not checked. -/
inductive Std (P : Change O → Prop) : Change O → Prop where
  | leaf (h : Hdr O) (cmp : Option (Res (Bool × Option Str))) (b : Bool) (d : Option Str)
      (hp : P (.leaf h cmp b d)) : Std P (.leaf h cmp b d)
  | super (h : Hdr O) (b : Bool) (d : Option Str) (cs : List (Change O)) (hk : h.kind = .plain)
      (hi : h.ign = .inherit) (hc : ∀ c ∈ cs, Std P c) : Std P (.super h none b d cs)
  | short (h : Hdr O) (s : Bool) (b : Bool) (d : Option Str) (cs : List (Change O))
      (hk : h.kind = .plain) (hi : h.ign = .inherit) (hs : s = true → cs ≠ [])
      (hc : ∀ c ∈ cs, c.isChange = false) : Std P (.super h (some s) b d cs)

/-- Whether a checked tree of that shape counts as a change is decided by its leaves. -/
theorem Std.counts (o : O) (f : String → Bool) (c c' : Change O)
    (hstd : Std (fun x => isIgnored o x = f x.hdr.typeName) c) (h : check c = .ok c') :
    (c'.isChange = true ∧ c'.isIgnored o = false) ↔
      ∃ x, LeafOf x c ∧ Differs x ∧ f x.hdr.typeName = false := by
  induction c using Change.ind generalizing c' with
  | hl hd cmp b d =>
    rw [C35_changed_iff_leaf _ _ h]
    have hi : isIgnored o c' = isIgnored o (.leaf hd cmp b d) := by
      cases cmp with
      | none => simp only [check, Except.ok.injEq] at h; subst h; rfl
      | some r =>
        cases r with
        | error e => simp [check] at h
        | ok p => obtain ⟨x, y⟩ := p; simp only [check, Except.ok.injEq] at h; subst h; rfl
    rw [hi]
    cases hstd with
    | leaf _ _ _ _ hp =>
      rw [hp]
      constructor
      · intro ⟨h1, h2⟩; exact ⟨_, .self hd cmp b d rfl, h1, h2⟩
      · rintro ⟨x, hx, h1, h2⟩
        cases hx with
        | self _ _ _ _ e => subst e; exact ⟨h1, h2⟩
  | hs hd short b d cs ih =>
    cases hstd with
    | short _ s _ _ _ hk hi hs hc =>
      simp only [check, Except.ok.injEq] at h
      subst h
      constructor
      · rintro ⟨h1, h2⟩
        have hst : s = true := by simpa [isChange, hk] using h1
        have := (C35_ignored_iff o hd (some s) s none cs (by rw [hi]; trivial)).2
          ⟨h1, hs hst, fun x hx hxc => by rw [hc x hx] at hxc; simp at hxc⟩
        rw [this] at h2; simp at h2
      · rintro ⟨x, hx, _⟩; cases hx
    | super _ _ _ _ hk hi hc =>
      simp only [check] at h
      cases hca : checkAll cs false with
      | error e => rw [hca] at h; simp at h
      | ok p =>
        obtain ⟨cs', b'⟩ := p
        rw [hca] at h
        simp only [Except.ok.injEq] at h
        subst h
        obtain ⟨h1, h2, h3, h4⟩ := checkAll_ok _ _ _ _ hca
        have key : ((Change.super hd none b' none cs').isChange = true ∧
            isIgnored o (Change.super hd none b' none cs') = false) ↔
            ∃ x ∈ cs', x.isChange = true ∧ x.isIgnored o = false := by
          have hig := C35_ignored_iff o hd none b' none cs' (by rw [hi]; trivial)
          have hch : (Change.super hd none b' none cs').isChange = b' := by simp [isChange, hk]
          constructor
          · intro ⟨ha, hb⟩
            rw [hch, h3] at ha
            rcases ha with ha | ⟨x, hx, hxc⟩
            · simp at ha
            · have : ¬ (∀ c ∈ cs', c.isChange = true → c.isIgnored o = true) := by
                intro hall
                have := hig.2 ⟨by rw [hch, h3]; exact .inr ⟨x, hx, hxc⟩,
                  fun he => by rw [he] at hx; simp at hx, hall⟩
                rw [this] at hb; simp at hb
              simp only [Classical.not_forall] at this
              obtain ⟨y, hy, hyc, hyi⟩ := this
              exact ⟨y, hy, hyc, by simpa using hyi⟩
          · intro ⟨x, hx, hxc, hxi⟩
            have hb' : b' = true := h3.2 (.inr ⟨x, hx, hxc⟩)
            refine ⟨by rw [hch]; exact hb', ?_⟩
            cases hv : isIgnored o (Change.super hd none b' none cs') with
            | false => rfl
            | true =>
              have := (hig.1 hv).2.2 x hx hxc
              rw [hxi] at this; simp at this
        rw [key]
        constructor
        · intro ⟨x, hx, hxx⟩
          obtain ⟨y, hy, hyx⟩ := h1 x hx
          obtain ⟨z, hz, hz2⟩ := (ih y hy x (hc y hy) hyx).1 hxx
          exact ⟨z, .child hd b d cs y hy hz, hz2⟩
        · rintro ⟨z, hz, hz2⟩
          cases hz with
          | child _ _ _ _ y hy hz =>
            obtain ⟨x, hx, hyx⟩ := h2 y hy
            exact ⟨x, hx, (ih y hy x (hc y hy) hyx).2 ⟨z, hz, hz2⟩⟩
  | hq hd oc b d i => cases hstd

end Change

/-! ### Which reports an option suppresses -/

/-- A later version: a larger major version, or the same and a larger minor one. -/
def Later (a b : Nat × Nat) : Prop := a.1 < b.1 ∨ a.1 = b.1 ∧ a.2 < b.2

instance (a b : Nat × Nat) : Decidable (Later a b) := by unfold Later; infer_instance

/-- The intended effect: whether a report of the given kind is suppressed, for the options set. -/
def intended (o : Opts) (l r : ClassInfo) (kind : String) : Bool :=
  if kind = "ClassVersionChange" then
    o.attr "ignore_version_up" && decide (Later l.version r.version) ||
    o.attr "ignore_version_down" && decide (Later r.version l.version)
  else if kind = "ClassPlatformChange" then
    o.attr "ignore_platform_up" && decide (Later l.version r.version) ||
    o.attr "ignore_platform_down" && decide (Later r.version l.version)
  else if kind = "CodeAbsoluteLinesChange" then o.attr "ignore_absolute_lines"
  else if kind = "CodeRelativeLinesChange" then o.attr "ignore_relative_lines"
  else if kind = "ClassDeprecationChange" || kind = "MethodDeprecationChange" ||
      kind = "FieldDeprecationChange" then o.attr "ignore_deprecated"
  else if kind = "ClassConstantPoolChange" then o.attr "ignore_pool"
  else if kind = "FieldAdded" || kind = "MethodAdded" then o.attr "ignore_added"
  else false

/-- The effect the code has: the platform options do nothing, the version options apply to the
platform as well; `ignore_added` does nothing. -/
def actual (o : Opts) (l r : ClassInfo) (kind : String) : Bool :=
  if kind = "ClassVersionChange" || kind = "ClassPlatformChange" then
    o.attr "ignore_version_up" && decide (Later l.version r.version) ||
    o.attr "ignore_version_down" && decide (Later r.version l.version)
  else if kind = "CodeAbsoluteLinesChange" then o.attr "ignore_absolute_lines"
  else if kind = "CodeRelativeLinesChange" then o.attr "ignore_relative_lines"
  else if kind = "ClassDeprecationChange" || kind = "MethodDeprecationChange" ||
      kind = "FieldDeprecationChange" then o.attr "ignore_deprecated"
  else if kind = "ClassConstantPoolChange" then o.attr "ignore_pool"
  else false

/-- A leaf of the comparison of two classes reports a difference that `eff` does not suppress. -/
def Reported (eff : String → Bool) (c : Change Opts) : Prop :=
  ∃ x, LeafOf x c ∧ Differs x ∧ eff x.hdr.typeName = false

/-- C43 as stated: the exit status is 1 exactly if some leaf difference is not suppressed by the
options. -/
def C43_full : Prop := ∀ (T : Texts) (lim depth : Nat) (o : Opts) (l r : ClassInfo) (s : Nat),
  classDiffStatus T lim depth o l r = .ok s →
  (s = 1 ↔ Reported (intended o l r) (javaClassChange T lim depth l r))

theorem verLt_later (a b : Nat × Nat) : verLt a b = decide (Later a b) := by
  rw [Bool.eq_iff_iff, decide_eq_true_eq]
  simp [verLt, Later]

section
variable (T : Texts) (lim depth : Nat) (o : Opts) (l r : ClassInfo)

abbrev Tabled (c : Change Opts) : Prop :=
  Std (fun x => isIgnored o x = actual o l r x.hdr.typeName) c

theorem Tabled.leaf {h : Hdr Opts} {cmp : Option (Res (Bool × Option Str))} {b : Bool}
    {d : Option Str} (hx : (match h.ign with
      | .inherit => false
      | .only rule => rule o
      | .orElse rule => rule o || false) = actual o l r h.typeName) :
    Tabled o l r (.leaf h cmp b d) := by
  refine Std.leaf _ _ _ _ ?_
  rw [← show actual o l r h.typeName = actual o l r (Change.leaf h cmp b d).hdr.typeName from rfl, ← hx]
  simp only [isIgnored]; cases h.ign <;> rfl

theorem raises_tabled (e : PyErr) : ∀ c ∈ raises e, Tabled o l r c := by
  intro c hc
  simp only [raises, List.mem_singleton] at hc
  subst hc
  exact Tabled.leaf o l r (by simp [actual])

theorem code_tabled (lp rp : Pool) (a b : Option CodeInfo) :
    ∀ c ∈ codeChildren T lim lp rp a b, Tabled o l r c := by
  intro c hc
  simp only [codeChildren, genericLeaf, List.mem_cons, List.not_mem_nil, or_false] at hc
  rcases hc with rfl | rfl | rfl | rfl | rfl | rfl | rfl <;>
    exact Tabled.leaf o l r (by simp [actual])

theorem methodCode_tabled (lp rp : Pool) (a b : Option CodeInfo) :
    Tabled o l r (methodCodeChange T lim lp rp a b) := by
  unfold methodCodeChange
  have hun : ∀ x ∈ codeChildren T lim lp rp a b, x.isChange = false := by
    intro x hx
    simp only [codeChildren, genericLeaf, List.mem_cons, List.not_mem_nil, or_false] at hx
    rcases hx with rfl | rfl | rfl | rfl | rfl | rfl | rfl <;> rfl
  cases a with
  | none =>
    cases b with
    | none => exact .short _ _ _ _ _ rfl rfl (by simp) (by simp)
    | some b => exact .short _ _ _ _ _ rfl rfl (by simp [codeChildren]) hun
  | some a =>
    cases b with
    | none => exact .short _ _ _ _ _ rfl rfl (by simp [codeChildren]) hun
    | some b => exact .super _ _ _ _ rfl rfl (code_tabled T lim o l r lp rp _ _)

theorem method_tabled (lp rp : Pool) (a b : Member) :
    ∀ c ∈ methodChildren T lim depth lp rp a b, Tabled o l r c := by
  intro c hc
  unfold methodChildren at hc
  split at hc
  · exact raises_tabled o l r _ c hc
  · split at hc
    · exact raises_tabled o l r _ c hc
    · simp only [genericLeaf, List.mem_cons, List.not_mem_nil, or_false] at hc
      rcases hc with rfl | rfl | rfl | rfl | rfl | rfl | rfl | rfl | rfl | rfl | rfl
      all_goals first
        | exact methodCode_tabled T lim o l r lp rp _ _
        | exact Tabled.leaf o l r (by simp [actual])

theorem field_tabled (lp rp : Pool) (a b : Member) :
    ∀ c ∈ fieldChildren T lim depth lp rp a b, Tabled o l r c := by
  intro c hc
  simp only [fieldChildren, genericLeaf, List.mem_cons, List.not_mem_nil, or_false] at hc
  rcases hc with rfl | rfl | rfl | rfl | rfl | rfl | rfl | rfl <;>
    exact Tabled.leaf o l r (by simp [actual])

theorem members_tabled (name label what : String) (hw : what = "Field" ∨ what = "Method")
    (children : Member → Member → List (Change Opts))
    (hch : ∀ a b, ∀ c ∈ children a b, Tabled o l r c) (lp rp : Pool) (ls rs : List Member) :
    Tabled o l r (membersChange T lim name label what children lp rp ls rs) := by
  refine .super _ _ _ _ rfl rfl ?_
  intro c hc
  split at hc
  · exact raises_tabled o l r _ c hc
  · obtain ⟨d, _, rfl⟩ := List.mem_map.1 hc
    cases d with
    | added m =>
      refine Tabled.leaf o l r ?_
      rcases hw with rfl | rfl <;> simp [actual]
    | removed m =>
      refine Tabled.leaf o l r ?_
      rcases hw with rfl | rfl <;> simp [actual]
    | changed a b => exact .super _ _ _ _ rfl rfl (hch a b)

theorem class_tabled : Tabled o l r (javaClassChange T lim depth l r) := by
  refine .super _ _ _ _ rfl rfl ?_
  intro c hc
  simp only [classChildren, List.mem_cons, List.not_mem_nil, or_false] at hc
  rcases hc with rfl | rfl | rfl | rfl | rfl | rfl
  · refine .super _ _ _ _ rfl rfl ?_
    intro c hc
    simp only [genericLeaf, List.mem_cons, List.not_mem_nil, or_false] at hc
    rcases hc with rfl | rfl | rfl | rfl | rfl | rfl | rfl | rfl <;>
      exact Tabled.leaf o l r (by simp [actual, versionIgnored, verLt_later])
  · exact Tabled.leaf o l r (by simp [actual])
  · exact Tabled.leaf o l r (by simp [actual])
  · exact Tabled.leaf o l r (by simp [actual])
  · exact members_tabled T lim o l r _ _ _ (.inl rfl) _
      (fun a b => field_tabled T lim depth o l r _ _ a b) _ _ _ _
  · exact members_tabled T lim o l r _ _ _ (.inr rfl) _
      (fun a b => method_tabled T lim depth o l r _ _ a b) _ _ _ _

/-- C43, what the options do: whenever the comparison completes, the status is 1 exactly if some
leaf reports a difference outside the `actual` table. -/
theorem C43_exact (s : Nat) (hs : classDiffStatus T lim depth o l r = .ok s) :
    s = 1 ↔ Reported (actual o l r) (javaClassChange T lim depth l r) := by
  unfold classDiffStatus at hs
  cases hch : (javaClassChange T lim depth l r).check with
  | error e => rw [hch] at hs; simp [Except.map] at hs
  | ok x =>
    rw [hch] at hs
    simp only [Except.map, Except.ok.injEq] at hs
    subst hs
    have := Std.counts o (actual o l r) _ x (class_tabled T lim depth o l r) hch
    rw [Reported, ← this]
    unfold exitStatus
    cases x.isChange <;> cases x.isIgnored o <;> simp

/-- C43, as stated, as long as `ignore_added` is not given and the platform options agree with the
version options. -/
theorem C43_options_partial (s : Nat) (hs : classDiffStatus T lim depth o l r = .ok s)
    (ha : o.attr "ignore_added" = false)
    (hu : o.attr "ignore_platform_up" = o.attr "ignore_version_up")
    (hd : o.attr "ignore_platform_down" = o.attr "ignore_version_down") :
    s = 1 ↔ Reported (intended o l r) (javaClassChange T lim depth l r) := by
  rw [C43_exact T lim depth o l r s hs]
  have : actual o l r = intended o l r := by
    funext k
    unfold actual intended
    rw [ha, hu, hd]
    by_cases h1 : k = "ClassVersionChange"
    · simp [h1]
    · by_cases h2 : k = "ClassPlatformChange"
      · simp [h2]
      · simp [h1, h2]
  rw [this]

/-- C43, options that concern a kind of report that the comparison does not make have no effect:
the status depends only on the table at the kinds of the reported differences. -/
theorem C43_other_options (o' : Opts) (s s' : Nat) (hs : classDiffStatus T lim depth o l r = .ok s)
    (hs' : classDiffStatus T lim depth o' l r = .ok s')
    (h : ∀ x, LeafOf x (javaClassChange T lim depth l r) → Differs x →
      actual o l r x.hdr.typeName = actual o' l r x.hdr.typeName) : s = s' := by
  have hst : ∀ (o : Opts) (s : Nat), classDiffStatus T lim depth o l r = .ok s → s = 0 ∨ s = 1 := by
    intro o s hs
    unfold classDiffStatus at hs
    cases hch : (javaClassChange T lim depth l r).check with
    | error e => rw [hch] at hs; simp [Except.map] at hs
    | ok x =>
      rw [hch] at hs
      simp only [Except.map, Except.ok.injEq] at hs
      rw [← hs]
      exact (C35_exit_status o x).2
  have key : s = 1 ↔ s' = 1 := by
    rw [C43_exact T lim depth o l r s hs, C43_exact T lim depth o' l r s' hs']
    constructor
    · rintro ⟨x, h1, h2, h3⟩; exact ⟨x, h1, h2, by rw [← h x h1 h2]; exact h3⟩
    · rintro ⟨x, h1, h2, h3⟩; exact ⟨x, h1, h2, by rw [h x h1 h2]; exact h3⟩
  have h1 := hst o s hs
  have h2 := hst o' s' hs'
  omega
end

/-- The class with a newer version number, on which the platform depends. -/
theorem C43_platform_witness :
    classDiffStatus noTexts 9 9 [("ignore_version_up".toList, true)] (classOf selfClass)
      (classOf { selfClass with major := 53 }) = .ok 0 := by decide +kernel

theorem C43_full_fails : ¬ C43_full := by
  intro h
  have hw := C43_platform_witness
  have h1 := (h _ _ _ _ _ _ _ hw).2 ?_
  · simp at h1
  · let l := classOf selfClass
    let r := classOf { selfClass with major := 53 }
    let x : Change Opts := genericLeaf "ClassPlatformChange" "Java platform" (.only (versionIgnored l r))
        (.ok (!decide (platformFromVersion l.version.1 l.version.2 =
          platformFromVersion r.version.1 r.version.2)))
        (noTexts.cls "ClassPlatformChange" l) (noTexts.cls "ClassPlatformChange" r)
    refine ⟨x, ?_, ?_, ?_⟩
    · refine .child _ _ _ _ (classInfoChange noTexts 9 l r) (by simp [classChildren, l, r]) ?_
      refine .child _ _ _ _ x ?_ (.self _ _ _ _ rfl)
      simp [x]
    · have hd : (!decide (platformFromVersion l.version.1 l.version.2 =
          platformFromVersion r.version.1 r.version.2)) = true := by decide +kernel
      simp only [x, hd]
      exact .compared _ _ _ _
    · decide +kernel

/-- `ignore_added` is not used. -/
theorem C43_added_witness :
    classDiffStatus noTexts 9 9 [("ignore_added".toList, true), ("ignore_pool".toList, true)]
      (classOf { selfClass with methods := [] }) (classOf selfClass) = .ok 1 ∧
    (sortedDeltas (fun m => m.identifier (classOf selfClass).pool 9)
      (fun m => m.identifier (classOf selfClass).pool 9) [] (classOf selfClass).methods).map
        (List.map MemberDelta.kind) = .ok [.added, .added] := by
  decide +kernel

/-! ### The command line -/

/-- The attributes an option sets. -/
def setsAttrs : OptArg → List Str
  | .flag name =>
    if name = "lines".toList then
      ["ignore_lines".toList, "ignore_absolute_lines".toList, "ignore_relative_lines".toList]
    else if name = "version".toList then
      ["ignore_version".toList, "ignore_version_up".toList, "ignore_version_down".toList]
    else if name = "platform".toList then
      ["ignore_platform".toList, "ignore_platform_up".toList, "ignore_platform_down".toList]
    else [ignoreAttr name]
  | .ignore values => (((splitChar ',' values).map strip).filter fun i => !i.isEmpty).map ignoreAttr

theorem applyOpt_eq (o : Opts) (a : OptArg) :
    applyOpt o a = (setsAttrs a).foldl (fun o k => o.set k true) o := by
  cases a with
  | flag name =>
    unfold applyOpt setsAttrs
    by_cases h1 : name = "lines".toList
    · simp only [h1, if_true]; rfl
    · by_cases h2 : name = "version".toList
      · simp only [h2, if_true]; rfl
      · by_cases h3 : name = "platform".toList
        · simp only [h3, if_true]; rfl
        · simp only [h1, h2, h3, if_false]; rfl
  | ignore values => simp only [applyOpt, setsAttrs, List.foldl_map]

theorem get?_foldl_set (ks : List Str) (o : Opts) (k : Str) :
    PyDict.get? (ks.foldl (fun o k => o.set k true) o) k =
      if k ∈ ks then some true else PyDict.get? o k := by
  induction ks generalizing o with
  | nil => simp
  | cons a ks ih =>
    rw [List.foldl_cons, ih, PyDict.get?_set]
    by_cases h : k ∈ ks
    · simp [h]
    · by_cases h2 : k = a
      · simp [h2]
      · have h3 : a ≠ k := fun e => h2 e.symm
        simp [h, h2, h3]

/-- C43, the command line: an attribute is set exactly if some option given sets it; the order
and repetitions do not matter. -/
theorem C43_parsed (args : List OptArg) (name : String) :
    (parseOpts args).attr name = true ↔ ∃ a ∈ args, name.toList ∈ setsAttrs a := by
  have key : ∀ (args : List OptArg) (o : Opts), (args.foldl applyOpt o).attr name = true ↔
      (o.attr name = true ∨ ∃ a ∈ args, name.toList ∈ setsAttrs a) := by
    intro args
    induction args with
    | nil => intro o; simp
    | cons a args ih =>
      intro o
      rw [List.foldl_cons, ih, applyOpt_eq]
      unfold Opts.attr
      rw [get?_foldl_set]
      by_cases h : name.toList ∈ setsAttrs a
      · simp [h]
      · simp [h]
  unfold parseOpts
  rw [key]
  simp [Opts.attr, PyDict.get?]

/-- An item of a comma list: no comma, not empty, no white space at the ends. -/
def Item (i : Str) : Prop := ',' ∉ i ∧ ∃ c d, i.head? = some c ∧ i.getLast? = some d ∧
  pySpace c = false ∧ pySpace d = false

/-- White space only. -/
def Blank (s : Str) : Prop := ∀ c ∈ s, pySpace c = true

theorem splitChar_append (a b : Str) (h : ',' ∉ a) :
    splitChar ',' (a ++ ',' :: b) = a :: splitChar ',' b := by
  induction a with
  | nil => simp [splitChar]
  | cons c a ih =>
    simp only [List.mem_cons, not_or] at h
    have hc : c ≠ ',' := fun e => h.1 e.symm
    simp only [List.cons_append, splitChar, hc, if_false, ih h.2]

theorem splitChar_last (a : Str) (h : ',' ∉ a) : splitChar ',' a = [a] := by
  induction a with
  | nil => rfl
  | cons c a ih =>
    simp only [List.mem_cons, not_or] at h
    have hc : c ≠ ',' := fun e => h.1 e.symm
    simp only [splitChar, hc, if_false, ih h.2]

theorem comma_not_space : pySpace ',' = false := by decide

theorem blank_no_comma {s : Str} (h : Blank s) : ',' ∉ s := by
  intro hc
  have := h _ hc
  rw [comma_not_space] at this
  simp at this

theorem dropWhile_blank {p s : Str} (h : Blank p) {c : Char} (hs : s.head? = some c)
    (hc : pySpace c = false) : (p ++ s).dropWhile pySpace = s := by
  induction p with
  | nil =>
    cases s with
    | nil => simp at hs
    | cons d s =>
      simp only [List.head?_cons, Option.some.injEq] at hs
      subst hs
      simp [hc]
  | cons a p ih =>
    have ha := h a (by simp)
    simp only [List.cons_append, List.dropWhile_cons, ha, if_true]
    exact ih fun c hc => h c (by simp [hc])

theorem strip_item {p i q : Str} (hp : Blank p) (hq : Blank q) (hi : Item i) :
    strip (p ++ i ++ q) = i := by
  obtain ⟨_, c, d, hc, hd, hcs, hds⟩ := hi
  unfold strip
  have h1 : (i ++ q).head? = some c := by
    cases i with
    | nil => simp at hc
    | cons x i => simpa using hc
  rw [List.append_assoc, dropWhile_blank hp h1 hcs, List.reverse_append]
  have h2 : (i.reverse).head? = some d := by rw [List.head?_reverse]; exact hd
  rw [dropWhile_blank (fun c hc => hq c (List.mem_reverse.1 hc)) h2 hds, List.reverse_reverse]

/-- The text of a list of items, each between white space, separated by commas. -/
def commaList : List (Str × Str × Str) → Str
  | [] => []
  | [(p, i, q)] => p ++ i ++ q
  | (p, i, q) :: r :: rest => p ++ i ++ q ++ ',' :: commaList (r :: rest)

theorem commaList_items (ps : List (Str × Str × Str))
    (h : ∀ x ∈ ps, Blank x.1 ∧ Item x.2.1 ∧ Blank x.2.2) (hne : ps ≠ []) :
    (splitChar ',' (commaList ps)).map strip = ps.map fun x => x.2.1 := by
  induction ps with
  | nil => exact absurd rfl hne
  | cons x ps ih =>
    obtain ⟨p, i, q⟩ := x
    obtain ⟨h1, h2, h3⟩ := h _ (List.mem_cons_self ..)
    have hno : ',' ∉ p ++ i ++ q := by
      simp only [List.mem_append, not_or]
      exact ⟨⟨blank_no_comma h1, h2.1⟩, blank_no_comma h3⟩
    cases ps with
    | nil => simp only [commaList, splitChar_last _ hno, List.map_cons, List.map_nil,
        strip_item h1 h3 h2]
    | cons y ps =>
      simp only [commaList]
      rw [splitChar_append _ _ hno, List.map_cons, strip_item h1 h3 h2,
        ih (fun x hx => h x (List.mem_cons_of_mem _ hx)) (by simp)]
      rfl

/-- C43, comma lists as stated: `--ignore a,b,…` does what the options `--ignore-a --ignore-b …`
do. -/
def C43_comma_full : Prop := ∀ (o : Opts) (ps : List (Str × Str × Str)),
  (∀ x ∈ ps, Blank x.1 ∧ Item x.2.1 ∧ Blank x.2.2) →
  applyOpt o (.ignore (commaList ps)) = (ps.map fun x => OptArg.flag x.2.1).foldl applyOpt o

/-- C43, comma lists: true except for the three names that stand for several options. -/
theorem C43_comma_partial (o : Opts) (ps : List (Str × Str × Str))
    (h : ∀ x ∈ ps, Blank x.1 ∧ Item x.2.1 ∧ Blank x.2.2)
    (hn : ∀ x ∈ ps, x.2.1 ≠ "lines".toList ∧ x.2.1 ≠ "version".toList ∧ x.2.1 ≠ "platform".toList) :
    applyOpt o (.ignore (commaList ps)) = (ps.map fun x => OptArg.flag x.2.1).foldl applyOpt o := by
  by_cases hne : ps = []
  · subst hne; rfl
  simp only [applyOpt, commaList_items ps h hne]
  have hf : (ps.map fun x => x.2.1).filter (fun i => !i.isEmpty) = ps.map fun x => x.2.1 := by
    rw [List.filter_eq_self]
    intro i hi
    obtain ⟨x, hx, rfl⟩ := List.mem_map.1 hi
    obtain ⟨_, ⟨_, c, _, hc, _⟩, _⟩ := h x hx
    generalize x.2.1 = i at hc
    cases i with
    | nil => simp at hc
    | cons _ _ => rfl
  rw [hf]
  clear hne hf h
  induction ps generalizing o with
  | nil => rfl
  | cons x ps ih =>
    obtain ⟨h1, h2, h3⟩ := hn x (List.mem_cons_self ..)
    simp only [List.map_cons, List.foldl_cons]
    rw [ih _ fun y hy => hn y (List.mem_cons_of_mem _ hy)]
    simp only [applyOpt, if_neg h1, if_neg h2, if_neg h3]

/-- `--ignore lines` does not ignore the line tables, `--ignore-lines` does. -/
theorem C43_comma_full_fails : ¬ C43_comma_full := by
  intro h
  have := h [] [([], "lines".toList, [])] (by
    intro x hx
    rw [List.mem_singleton] at hx
    subst hx
    exact ⟨by simp [Blank], ⟨by decide, 'l', 's', by decide, by decide, by decide, by decide⟩,
      by simp [Blank]⟩)
  revert this
  decide +kernel

/-- Words joined by a character. -/
def joinWords (sep : Char) : List Str → Str
  | [] => []
  | [w] => w
  | w :: ws => w ++ sep :: joinWords sep ws

theorem map_hyphen_self (w : Str) (h : '-' ∉ w) : (w.map fun c => if c = '-' then '_' else c) = w := by
  induction w with
  | nil => rfl
  | cons c w ih =>
    simp only [List.mem_cons, not_or] at h
    have hc : c ≠ '-' := fun e => h.1 e.symm
    simp only [List.map_cons, if_neg hc, ih h.2]

/-- C43, names: the option `--ignore-version-up` (words without hyphens, joined by hyphens) sets
the attribute `ignore_version_up`, alone or in a comma list. -/
theorem C43_option_names (ws : List Str) (h : ∀ w ∈ ws, '-' ∉ w) :
    ignoreAttr (joinWords '-' ws) = "ignore_".toList ++ joinWords '_' ws ∧
    (joinWords '-' ws ∉ ["lines".toList, "version".toList, "platform".toList] →
      setsAttrs (.flag (joinWords '-' ws)) = ["ignore_".toList ++ joinWords '_' ws]) := by
  have key : (joinWords '-' ws).map (fun c => if c = '-' then '_' else c) = joinWords '_' ws := by
    induction ws with
    | nil => rfl
    | cons w ws ih =>
      cases ws with
      | nil => exact map_hyphen_self w (h w (by simp))
      | cons v ws =>
        have := ih fun x hx => h x (List.mem_cons_of_mem _ hx)
        simp only [joinWords, List.map_append, List.map_cons, if_true,
          map_hyphen_self w (h w (List.mem_cons_self ..))]
        rw [this]
  have hi : ignoreAttr (joinWords '-' ws) = "ignore_".toList ++ joinWords '_' ws := by
    unfold ignoreAttr
    rw [key]
  refine ⟨hi, fun hn => ?_⟩
  simp only [List.mem_cons, List.not_mem_nil, or_false, not_or] at hn
  simp only [setsAttrs, if_neg hn.1, if_neg hn.2.1, if_neg hn.2.2, hi]

example : joinWords '-' ["version".toList, "up".toList] = "version-up".toList ∧
    joinWords '_' ["version".toList, "up".toList] = "version_up".toList := by decide +kernel

/-- `--ignore " pool ,deprecated" --ignore-version` -/
example : ∀ n ∈ ["ignore_pool", "ignore_deprecated", "ignore_version_up", "ignore_version_down"],
    (parseOpts [.ignore " pool ,deprecated".toList, .flag "version".toList]).attr n = true := by
  decide +kernel

/-- A newer class file version, with the option for the other direction. -/
example : classDiffStatus noTexts 9 9 (parseOpts [.flag "version-down".toList]) (classOf selfClass)
      (classOf { selfClass with major := 53 }) = .ok 1 ∧
    classDiffStatus noTexts 9 9 (parseOpts [.flag "version-up".toList]) (classOf selfClass)
      (classOf { selfClass with major := 53 }) = .ok 0 ∧
    classDiffStatus noTexts 9 9 (parseOpts [.flag "platform".toList]) (classOf selfClass)
      (classOf { selfClass with major := 53 }) = .ok 1 := by decide +kernel

end Javatools
