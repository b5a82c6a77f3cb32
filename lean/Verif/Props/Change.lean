import Verif.Model.Change
/-
C35-C38: change trees, squashing, grouping by type, reports.
-/
namespace Javatools
namespace Change
variable {O : Type}

theorem ind {P : Change O → Prop} (hl : ∀ h cmp b d, P (.leaf h cmp b d))
    (hs : ∀ h short b d cs, (∀ c ∈ cs, P c) → P (.super h short b d cs))
    (hq : ∀ h oc b d i, P (.squashed h oc b d i)) : ∀ c, P c := by
  intro c
  refine Change.rec (motive_1 := P) (motive_2 := fun cs => ∀ c ∈ cs, P c) hl hs hq (by simp) ?_ c
  intro c cs hc hcs x hx
  rcases List.mem_cons.1 hx with rfl | hx
  · exact hc
  · exact hcs x hx

theorem allIgnored_iff (o : O) (cs : List (Change O)) :
    allIgnored o cs = true ↔ ∀ c ∈ cs, c.isChange = true → isIgnored o c = true := by
  induction cs with
  | nil => simp [allIgnored]
  | cons c cs ih =>
    simp only [allIgnored, List.mem_cons, forall_eq_or_imp]
    by_cases h : (c.isChange && !isIgnored o c) = true
    · rw [if_pos h]
      simp only [Bool.and_eq_true, Bool.not_eq_true'] at h
      simp only [Bool.false_eq_true, false_iff, not_and]
      intro h2
      have := h2 h.1
      rw [h.2] at this
      exact absurd this (by simp)
    · rw [if_neg h, ih]
      simp only [Bool.and_eq_true, Bool.not_eq_true', not_and, Bool.not_eq_false] at h
      exact ⟨fun h2 => ⟨h, h2⟩, fun h2 => h2.2⟩

/-! ## C35 -/

/-- Some leaf comparison of the tree finds a difference. An addition or removal is a difference
by itself; a squashed change is one when it says so; a composite that decides without its
children is one when that decision says so. -/
inductive Differs : Change O → Prop where
  | kind (c : Change O) (h : c.hdr.kind ≠ .plain) (hs : ∀ h oc b d i, c ≠ .squashed h oc b d i) :
      Differs c
  | compared (h : Hdr O) (d : Option Str) (b0 : Bool) (d0 : Option Str) :
      Differs (.leaf h (some (.ok (true, d))) b0 d0)
  | preset (h : Hdr O) (d0 : Option Str) : Differs (.leaf h none true d0)
  | short (h : Hdr O) (b0 : Bool) (d0 : Option Str) (cs : List (Change O)) :
      Differs (.super h (some true) b0 d0 cs)
  | child (h : Hdr O) (b0 : Bool) (d0 : Option Str) (cs : List (Change O)) (c : Change O)
      (hc : c ∈ cs) (hd : Differs c) : Differs (.super h none b0 d0 cs)
  | squashed (h : Hdr O) (oc : String) (d : Str) (i : Bool) : Differs (.squashed h oc true d i)

/-- The children before and after a successful check, pairwise. -/
theorem checkAll_ok (cs : List (Change O)) (b : Bool) (cs' : List (Change O)) (b' : Bool)
    (h : checkAll cs b = .ok (cs', b')) :
    (∀ c' ∈ cs', ∃ c ∈ cs, check c = .ok c') ∧ (∀ c ∈ cs, ∃ c' ∈ cs', check c = .ok c') ∧
    (b' = true ↔ b = true ∨ ∃ c' ∈ cs', c'.isChange = true) ∧ cs'.length = cs.length := by
  induction cs generalizing b cs' b' with
  | nil =>
    simp only [checkAll, Except.ok.injEq, Prod.mk.injEq] at h
    obtain ⟨rfl, rfl⟩ := h
    simp
  | cons c cs ih =>
    simp only [checkAll] at h
    cases hc : check c with
    | error e => rw [hc] at h; simp at h
    | ok c1 =>
      rw [hc] at h
      simp only at h
      cases hr : checkAll cs (b || c1.isChange) with
      | error e => rw [hr] at h; simp at h
      | ok p =>
        obtain ⟨cs1, b1⟩ := p
        rw [hr] at h
        simp only [Except.ok.injEq, Prod.mk.injEq] at h
        obtain ⟨rfl, rfl⟩ := h
        obtain ⟨h1, h2, h3, h4⟩ := ih _ _ _ hr
        refine ⟨?_, ?_, ?_, by simp [h4]⟩
        · intro c' hc'
          rcases List.mem_cons.1 hc' with rfl | hc'
          · exact ⟨c, by simp, hc⟩
          · obtain ⟨x, hx, hx2⟩ := h1 c' hc'
            exact ⟨x, by simp [hx], hx2⟩
        · intro x hx
          rcases List.mem_cons.1 hx with rfl | hx
          · exact ⟨c1, by simp, hc⟩
          · obtain ⟨x', hx', hx2⟩ := h2 x hx
            exact ⟨x', by simp [hx'], hx2⟩
        · rw [h3]
          simp only [Bool.or_eq_true, List.mem_cons, exists_eq_or_imp]
          exact or_assoc

/-- `check` keeps the class of the object, in particular whether it is an addition. -/
theorem check_hdr (c c' : Change O) (h : check c = .ok c') : c'.hdr = c.hdr := by
  cases c with
  | leaf hd cmp b d =>
    cases cmp with
    | none => simp only [check, Except.ok.injEq] at h; subst h; rfl
    | some r =>
      cases r with
      | error e => simp [check] at h
      | ok p => obtain ⟨x, y⟩ := p; simp only [check, Except.ok.injEq] at h; subst h; rfl
  | super hd short b d cs =>
    cases short with
    | some x => simp only [check, Except.ok.injEq] at h; subst h; rfl
    | none =>
      simp only [check] at h
      cases hc : checkAll cs false with
      | error e => rw [hc] at h; simp at h
      | ok p =>
        obtain ⟨x, y⟩ := p
        rw [hc] at h
        simp only [Except.ok.injEq] at h; subst h; rfl
  | squashed hd oc b d i => simp only [check, Except.ok.injEq] at h; subst h; rfl

theorem isChange_of_kind (c : Change O) (h : c.hdr.kind ≠ .plain)
    (hs : ∀ h oc b d i, c ≠ .squashed h oc b d i) : c.isChange = true := by
  cases c with
  | leaf hd cmp b d =>
    simp only [hdr] at h
    simp only [isChange]
  | super hd sh b d cs =>
    simp only [hdr] at h
    simp only [isChange]
  | squashed hd oc b d i => exact absurd rfl (hs hd oc b d i)

/-- C35: after `check`, a change is changed exactly when one of its leaf comparisons is. -/
theorem C35_changed_iff_leaf (c c' : Change O) (h : check c = .ok c') :
    c'.isChange = true ↔ Differs c := by
  induction c using Change.ind generalizing c' with
  | hl hd cmp b d =>
    by_cases hk : hd.kind = .plain
    · cases cmp with
      | none =>
        simp only [check, Except.ok.injEq] at h
        subst h
        simp only [isChange, hk]
        constructor
        · intro h; subst h; exact .preset hd d
        · intro h
          cases h with
          | kind _ h _ => exact absurd hk h
          | preset => rfl
      | some r =>
        cases r with
        | error e => simp [check] at h
        | ok p =>
          obtain ⟨x, y⟩ := p
          simp only [check, Except.ok.injEq] at h
          subst h
          simp only [isChange, hk]
          constructor
          · intro h; subst h; exact .compared hd y b d
          · intro h
            cases h with
            | kind _ h _ => exact absurd hk h
            | compared => rfl
    · have : Differs (.leaf hd cmp b d) := .kind _ hk (by intros; simp)
      refine ⟨fun _ => this, fun _ => ?_⟩
      cases cmp with
      | none =>
        simp only [check, Except.ok.injEq] at h
        subst h
        exact isChange_of_kind _ hk (by intros; simp)
      | some r =>
        cases r with
        | error e => simp [check] at h
        | ok p =>
          obtain ⟨x, y⟩ := p
          simp only [check, Except.ok.injEq] at h
          subst h
          exact isChange_of_kind _ hk (by intros; simp)
  | hs hd short b d cs ih =>
    by_cases hk : hd.kind = .plain
    · cases short with
      | some x =>
        simp only [check, Except.ok.injEq] at h
        subst h
        simp only [isChange, hk]
        constructor
        · intro h; subst h; exact .short hd b d cs
        · intro h
          cases h with
          | kind _ h _ => exact absurd hk h
          | short => rfl
      | none =>
        simp only [check] at h
        cases hc : checkAll cs false with
        | error e => rw [hc] at h; simp at h
        | ok p =>
          obtain ⟨cs', b'⟩ := p
          rw [hc] at h
          simp only [Except.ok.injEq] at h
          subst h
          obtain ⟨h1, h2, h3, _⟩ := checkAll_ok _ _ _ _ hc
          simp only [isChange, hk]
          rw [h3]
          constructor
          · rintro (h | ⟨c', hc', hch⟩)
            · simp at h
            · obtain ⟨x, hx, hx2⟩ := h1 c' hc'
              exact .child hd b d cs x hx ((ih x hx c' hx2).1 hch)
          · intro h
            right
            cases h with
            | kind _ h _ => exact absurd hk h
            | child _ _ _ _ x hx hd' =>
              obtain ⟨c', hc', hx2⟩ := h2 x hx
              exact ⟨c', hc', (ih x hx c' hx2).2 hd'⟩
    · have : Differs (.super hd short b d cs) := .kind _ hk (by intros; simp)
      refine ⟨fun _ => this, fun _ => ?_⟩
      cases short with
      | some x =>
        simp only [check, Except.ok.injEq] at h
        subst h
        exact isChange_of_kind _ hk (by intros; simp)
      | none =>
        simp only [check] at h
        cases hc : checkAll cs false with
        | error e => rw [hc] at h; simp at h
        | ok p =>
          obtain ⟨cs', b'⟩ := p
          rw [hc] at h
          simp only [Except.ok.injEq] at h
          subst h
          exact isChange_of_kind _ hk (by intros; simp)
  | hq hd oc b d i =>
    simp only [check, Except.ok.injEq] at h
    subst h
    simp only [isChange]
    constructor
    · intro h; subst h; exact .squashed hd oc d i
    · intro h
      cases h with
      | kind _ _ hs => exact absurd rfl (hs hd oc b d i)
      | squashed => rfl

/-- C35: a composite (that does not override `is_ignored`) is ignored exactly when it is
changed, has children and every changed child is ignored. -/
theorem C35_ignored_iff (o : O) (h : Hdr O) (short : Option Bool) (b : Bool) (d : Option Str)
    (cs : List (Change O)) (hi : match h.ign with | .inherit => True | _ => False) :
    (Change.super h short b d cs).isIgnored o = true ↔
      (Change.super h short b d cs).isChange = true ∧ cs ≠ [] ∧
      ∀ c ∈ cs, c.isChange = true → c.isIgnored o = true := by
  cases hg : h.ign with
  | only r => rw [hg] at hi; exact hi.elim
  | orElse r => rw [hg] at hi; exact hi.elim
  | inherit =>
    simp only [isIgnored, hg]
    rw [← allIgnored_iff]
    by_cases h1 : (Change.super h short b d cs).isChange = true
    · rw [h1]
      cases cs with
      | nil => simp
      | cons c cs => simp
    · simp only [Bool.not_eq_true] at h1
      simp [h1]

/-- C35: an overridden `is_ignored` of the two shapes used by the jar and distribution
changes. -/
theorem C35_ignored_override (o : O) (h : Hdr O) (rule : O → Bool) (short : Option Bool) (b : Bool)
    (d : Option Str) (cs : List (Change O)) :
    (h.ign = .only rule → (Change.super h short b d cs).isIgnored o = rule o) ∧
    (h.ign = .orElse rule → ((Change.super h short b d cs).isIgnored o = true ↔ rule o = true ∨
      (Change.super { h with ign := .inherit } short b d cs).isIgnored o = true)) := by
  constructor
  · intro hg; simp only [isIgnored, hg]
  · intro hg
    simp only [isIgnored, hg, Bool.or_eq_true]
    rfl

/-- C35: the exit status is 0 exactly when there is no unignored change at the top level. -/
theorem C35_exit_status (o : O) (c : Change O) :
    (exitStatus o c = 0 ↔ ¬ (c.isChange = true ∧ c.isIgnored o = false)) ∧
    (exitStatus o c = 0 ∨ exitStatus o c = 1) := by
  unfold exitStatus
  cases c.isChange <;> cases c.isIgnored o <;> simp

/-- Composites as `SuperChange` itself: no addition or removal, no shortcut, no override of
`is_ignored`. -/
inductive Ordinary : Change O → Prop where
  | leaf (h : Hdr O) (cmp : Option (Res (Bool × Option Str))) (b : Bool) (d : Option Str) :
      Ordinary (.leaf h cmp b d)
  | squashed (h : Hdr O) (oc : String) (b : Bool) (d : Str) (i : Bool) :
      Ordinary (.squashed h oc b d i)
  | super (h : Hdr O) (b : Bool) (d : Option Str) (cs : List (Change O)) (hk : h.kind = .plain)
      (hi : h.ign = .inherit) (hc : ∀ c ∈ cs, Ordinary c) : Ordinary (.super h none b d cs)

/-- Some difference among the leaves of the tree is not ignored. -/
inductive Unignored (o : O) : Change O → Prop where
  | leaf (h : Hdr O) (cmp : Option (Res (Bool × Option Str))) (b : Bool) (d : Option Str)
      (hd : Differs (.leaf h cmp b d)) (hi : isIgnored o (.leaf h cmp b d) = false) :
      Unignored o (.leaf h cmp b d)
  | squashed (h : Hdr O) (oc : String) (d : Str) : Unignored o (.squashed h oc true d false)
  | child (h : Hdr O) (sh : Option Bool) (b : Bool) (d : Option Str) (cs : List (Change O))
      (c : Change O) (hc : c ∈ cs) (hu : Unignored o c) : Unignored o (.super h sh b d cs)

/-- C35, exit status and leaves: for a tree of ordinary composites, the status after `check` is
0 exactly when every difference found by a leaf is ignored. -/
theorem C35_exit_leaves (o : O) (c c' : Change O) (hord : Ordinary c) (h : check c = .ok c') :
    exitStatus o c' = 0 ↔ ¬ Unignored o c := by
  rw [(C35_exit_status o c').1]
  refine not_congr ?_
  induction c using Change.ind generalizing c' with
  | hl hd cmp b d =>
    rw [C35_changed_iff_leaf _ _ h]
    have hi : isIgnored o c' = isIgnored o (.leaf hd cmp b d) := by
      cases cmp with
      | none => simp only [check, Except.ok.injEq] at h; subst h; rfl
      | some r =>
        cases r with
        | error e => simp [check] at h
        | ok p => obtain ⟨x, y⟩ := p; simp only [check, Except.ok.injEq] at h; subst h; rfl
    rw [hi]
    constructor
    · intro ⟨h1, h2⟩; exact .leaf hd cmp b d h1 h2
    · intro h
      cases h with
      | leaf _ _ _ _ h1 h2 => exact ⟨h1, h2⟩
  | hs hd short b d cs ih =>
    cases hord with
    | super _ _ _ _ hk hi hc =>
      simp only [check] at h
      cases hca : checkAll cs false with
      | error e => rw [hca] at h; simp at h
      | ok p =>
        obtain ⟨cs', b'⟩ := p
        rw [hca] at h
        simp only [Except.ok.injEq] at h
        subst h
        obtain ⟨h1, h2, h3, h4⟩ := checkAll_ok _ _ _ _ hca
        have key : ((Change.super hd none b' none cs').isChange = true ∧
            isIgnored o (Change.super hd none b' none cs') = false) ↔
            ∃ x ∈ cs', x.isChange = true ∧ x.isIgnored o = false := by
          have hig := C35_ignored_iff o hd none b' none cs' (by rw [hi]; trivial)
          have hch : (Change.super hd none b' none cs').isChange = b' := by simp [isChange, hk]
          constructor
          · intro ⟨ha, hb⟩
            rw [hch, h3] at ha
            rcases ha with ha | ⟨x, hx, hxc⟩
            · simp at ha
            · have : ¬ (∀ c ∈ cs', c.isChange = true → c.isIgnored o = true) := by
                intro hall
                have := hig.2 ⟨by rw [hch, h3]; exact .inr ⟨x, hx, hxc⟩,
                  fun he => by rw [he] at hx; simp at hx, hall⟩
                rw [this] at hb; simp at hb
              simp only [Classical.not_forall] at this
              obtain ⟨y, hy, hyc, hyi⟩ := this
              exact ⟨y, hy, hyc, by simpa using hyi⟩
          · intro ⟨x, hx, hxc, hxi⟩
            have hb' : b' = true := h3.2 (.inr ⟨x, hx, hxc⟩)
            refine ⟨by rw [hch]; exact hb', ?_⟩
            cases hv : isIgnored o (Change.super hd none b' none cs') with
            | false => rfl
            | true =>
              have := (hig.1 hv).2.2 x hx hxc
              rw [hxi] at this; simp at this
        rw [key]
        constructor
        · intro ⟨x, hx, hxx⟩
          obtain ⟨y, hy, hyx⟩ := h1 x hx
          exact .child hd none b d cs y hy ((ih y hy x (hc y hy) hyx).1 hxx)
        · intro hu
          cases hu with
          | child _ _ _ _ _ y hy hu =>
            obtain ⟨x, hx, hyx⟩ := h2 y hy
            exact ⟨x, hx, (ih y hy x (hc y hy) hyx).2 hu⟩
  | hq hd oc b d i =>
    simp only [check, Except.ok.injEq] at h
    subst h
    simp only [isChange, isIgnored]
    constructor
    · intro ⟨h1, h2⟩; subst h1; subst h2; exact .squashed hd oc d
    · intro h
      cases h with
      | squashed => exact ⟨rfl, rfl⟩

/-- A tree with an ignored difference, an unchanged leaf and a nested addition. -/
def demoLeaf (name : String) (c : Bool) (ign : IgnoreRule Bool) : Change Bool :=
  .leaf { typeName := name, label := name.toList, ign := ign } (some (.ok (c, none))) false none
def demoAdd : Change Bool :=
  .leaf { typeName := "MethodAdded", label := "Method added".toList, kind := .addition } none false none
def demoSuper (name : String) (cs : List (Change Bool)) : Change Bool :=
  .super { typeName := name, label := name.toList } none false none cs
def demoTree : Change Bool :=
  demoSuper "JavaClassChange" [demoLeaf "Version" true (.only id), demoLeaf "Name" false .inherit,
    demoSuper "Methods" [demoAdd]]

example : (check demoTree).map (exitStatus true) = .ok 1 ∧
    (check (demoSuper "A" [demoLeaf "V" true (.only id), demoLeaf "N" false .inherit])).map
      (exitStatus true) = .ok 0 ∧
    (check (demoSuper "A" [demoLeaf "V" true (.only id), demoLeaf "N" false .inherit])).map
      (exitStatus false) = .ok 1 := by decide

/-! ## C36 -/

/-- An overridden `get_description` gives a non-empty text, as all those in the project do. -/
def Described (c : Change O) : Prop := ∀ f, c.hdr.describe = some f → ∀ b, f b ≠ []

theorem orDefault_ne (d : Option Str) (l : Str) (b : Bool) :
    orDefault d (defaultDescription l b) ≠ [] := by
  unfold orDefault
  have : defaultDescription l b ≠ [] := by
    unfold defaultDescription
    cases b <;> simp
  cases d with
  | none => exact this
  | some d =>
    simp only
    split
    · exact this
    · assumption

theorem getDescription_ne (c : Change O) (h : Described c) : c.getDescription ≠ [] := by
  cases c with
  | leaf hd cmp b d =>
    simp only [getDescription]
    cases hf : hd.describe with
    | none => exact orDefault_ne _ _ _
    | some f => exact h f hf _
  | super hd short b d cs =>
    simp only [getDescription]
    cases hf : hd.describe with
    | none => exact orDefault_ne _ _ _
    | some f => exact h f hf _
  | squashed hd oc b d i =>
    exact orDefault_ne (some d) hd.label b

theorem mkSquashed_desc (cls : String) (k : Kind) (c : Change O) (i : Bool) (h : Described c) :
    (mkSquashed cls k c i).getDescription = c.getDescription := by
  show orDefault (some c.getDescription) _ = _
  have := getDescription_ne c h
  simp only [orDefault]
  rw [if_neg this]

/-- C36: squashing with options preserves is_change, is_ignored, description, label, entry and
whether it is an addition or removal. -/
theorem C36_squash (c : Change O) (o : O) (ign : Bool) (h : Described c) :
    let s := c.squash ign (some o)
    s.isChange = c.isChange ∧ s.isIgnored o = c.isIgnored o ∧
    s.getDescription = c.getDescription ∧ s.hdr.label = c.hdr.label ∧
    s.hdr.entry = c.hdr.entry ∧ s.hdr.kind = c.hdr.kind := by
  simp only [squash]
  cases hk : c.hdr.kind <;>
    exact ⟨rfl, by simp only [mkSquashed, isIgnored], mkSquashed_desc _ _ _ _ h, rfl, rfl, rfl⟩

/-- C36: without options the given verdict is kept. -/
theorem C36_squash_default (c : Change O) (o : O) (ign : Bool) (h : Described c) :
    (c.squash ign none).isIgnored o = ign ∧ (c.squash ign none).isChange = c.isChange ∧
    (c.squash ign none).getDescription = c.getDescription := by
  simp only [squash]
  cases hk : c.hdr.kind <;>
    exact ⟨by simp only [mkSquashed, isIgnored], rfl, mkSquashed_desc _ _ _ _ h⟩

theorem squash_described (c : Change O) (ign : Bool) (o : Option O) : Described (c.squash ign o) := by
  intro f hf
  simp only [squash] at hf
  cases hk : c.hdr.kind <;> rw [hk] at hf <;> simp [mkSquashed, hdr] at hf

/-- C36: squashing again changes nothing more. -/
theorem C36_squash_twice (c : Change O) (o o' : O) (ign : Bool) (h : Described c) :
    let s := c.squash ign (some o)
    let t := s.squash ign (some o')
    t.isIgnored o = c.isIgnored o ∧ t.isChange = c.isChange ∧ t.getDescription = c.getDescription := by
  intro s t
  obtain ⟨h1, h2, h3, _⟩ := C36_squash c o ign h
  obtain ⟨g1, g2, g3, _⟩ := C36_squash s o' ign (squash_described c ign (some o))
  have e : ∀ p q : O, t.isIgnored p = t.isIgnored q ∧ s.isIgnored p = s.isIgnored q := by
    intro p q
    simp only [t, s, squash]
    constructor
    · generalize c.hdr.kind = k
      cases k <;> simp [mkSquashed, hdr, isIgnored]
    · cases c.hdr.kind <;> simp only [mkSquashed, isIgnored]
  exact ⟨by rw [(e o o').1, g2, (e o' o).2, h2], g1.trans h1, g3.trans h3⟩

theorem squash_isChange (c : Change O) (ign : Bool) (o : Option O) :
    (c.squash ign o).isChange = c.isChange := by
  simp only [squash]
  cases hk : c.hdr.kind <;> rfl

theorem squash_isIgnored (c : Change O) (ign : Bool) (o o' : O) :
    (c.squash ign (some o)).isIgnored o' = c.isIgnored o := by
  simp only [squash]
  cases hk : c.hdr.kind <;> simp only [mkSquashed, isIgnored]

/-- C36: replacing all children of a composite by their squashed forms preserves its verdict,
whatever override of `is_ignored` it has. -/
theorem C36_squash_children (c : Change O) (o : O) :
    (c.squashChildren o).isChange = c.isChange ∧
    (c.squashChildren o).isIgnored o = c.isIgnored o ∧
    exitStatus o (c.squashChildren o) = exitStatus o c ∧
    (c.squashChildren o).getDescription = c.getDescription := by
  cases c with
  | leaf hd cmp b d => simp [squashChildren]
  | squashed hd oc b d i => simp [squashChildren]
  | super hd short b d cs =>
    have hch : (squashChildren (.super hd short b d cs) o).isChange =
        (Change.super hd short b d cs).isChange := rfl
    have hall : allIgnored o (cs.map fun x => x.squash false (some o)) = allIgnored o cs := by
      rw [Bool.eq_iff_iff, allIgnored_iff, allIgnored_iff]
      simp only [List.mem_map, forall_exists_index, and_imp, forall_apply_eq_imp_iff₂,
        squash_isChange, squash_isIgnored]
    have hig : (squashChildren (.super hd short b d cs) o).isIgnored o =
        (Change.super hd short b d cs).isIgnored o := by
      simp only [squashChildren, isIgnored, hall]
      have : (cs.map fun x => x.squash false (some o)).isEmpty = cs.isEmpty := by
        cases cs <;> rfl
      rw [this]
      rfl
    refine ⟨hch, hig, ?_, rfl⟩
    unfold exitStatus
    rw [hch, hig]

example : ((demoAdd.squash false (some true)).hdr.typeName,
    (demoAdd.squash false (some true)).isChange,
    String.ofList (demoAdd.squash false (some true)).getDescription) =
    ("SquashedAddition", true, "Method added changed") := by decide

end Change

/-! ## C37 -/

section
variable {α τ : Type} [DecidableEq τ]

/-- The distinct elements of a list, in order of first occurrence. -/
def distinct : List τ → List τ
  | [] => []
  | t :: ts => t :: (distinct ts).filter (· ≠ t)

theorem mem_distinct (ts : List τ) (t : τ) : t ∈ distinct ts ↔ t ∈ ts := by
  induction ts with
  | nil => simp [distinct]
  | cons x xs ih =>
    simp only [distinct, List.mem_cons, List.mem_filter, ih]
    by_cases h : t = x <;> simp [h]

theorem distinct_nodup (ts : List τ) : (distinct ts).Nodup := by
  induction ts with
  | nil => simp [distinct]
  | cons x xs ih =>
    simp only [distinct, List.nodup_cons]
    exact ⟨by simp, List.Pairwise.filter _ ih⟩

theorem distinct_snoc (ts : List τ) (t : τ) :
    distinct (ts ++ [t]) = if t ∈ ts then distinct ts else distinct ts ++ [t] := by
  induction ts with
  | nil => simp [distinct]
  | cons x xs ih =>
    simp only [List.cons_append, distinct, ih, List.mem_cons]
    by_cases h : t ∈ xs
    · simp [h]
    · by_cases h2 : t = x
      · subst h2; simp [h]
      · simp [h, h2]

/-- The buckets of a sequence: one per type, in order of first occurrence. -/
def buckets (type : α → τ) (objs : List α) : PyDict τ (List α) :=
  (distinct (objs.map type)).map fun t => (t, objs.filter fun v => type v = t)

theorem get?_tab (l : List τ) (f : τ → List α) (t : τ) :
    PyDict.get? (l.map fun t => (t, f t)) t = if t ∈ l then some (f t) else none := by
  induction l with
  | nil => rfl
  | cons x l ih =>
    simp only [List.map_cons, PyDict.get?, ih, List.mem_cons]
    by_cases h : x = t
    · simp [h]
    · have : ¬ t = x := fun e => h e.symm
      simp [h, this]

theorem set_tab_mem (l : List τ) (hl : l.Nodup) (f : τ → List α) (t : τ) (v : List α) (h : t ∈ l) :
    PyDict.set (l.map fun t => (t, f t)) t v = l.map fun u => (u, if u = t then v else f u) := by
  induction l with
  | nil => simp at h
  | cons x l ih =>
    simp only [List.nodup_cons] at hl
    simp only [List.map_cons, PyDict.set]
    by_cases hx : x = t
    · subst hx
      simp only [if_true, List.cons.injEq, true_and]
      apply List.map_congr_left
      intro u hu
      have : u ≠ x := fun e => hl.1 (e ▸ hu)
      simp [this]
    · simp only [if_neg hx, List.cons.injEq, true_and]
      exact ih hl.2 ((List.mem_cons.1 h).resolve_left fun e => hx e.symm)

theorem set_tab_not_mem (l : List τ) (f : τ → List α) (t : τ) (v : List α) (h : t ∉ l) :
    PyDict.set (l.map fun t => (t, f t)) t v = (l.map fun t => (t, f t)) ++ [(t, v)] := by
  induction l with
  | nil => rfl
  | cons x l ih =>
    simp only [List.mem_cons, not_or] at h
    simp only [List.map_cons, PyDict.set, if_neg (fun e => h.1 e.symm : ¬ x = t), ih h.2,
      List.cons_append]

theorem del_tab (l : List τ) (hl : l.Nodup) (f : τ → List α) (t : τ) :
    PyDict.del (l.map fun t => (t, f t)) t = (l.filter (· ≠ t)).map fun t => (t, f t) := by
  induction l with
  | nil => rfl
  | cons x l ih =>
    simp only [List.nodup_cons] at hl
    simp only [List.map_cons, PyDict.del]
    by_cases hx : x = t
    · subst hx
      simp only [if_true, ne_eq, not_true, decide_false, List.filter_cons, Bool.false_eq_true, if_false]
      have : l.filter (fun u => decide (¬ u = x)) = l :=
        List.filter_eq_self.2 fun u hu => by
          have : u ≠ x := fun e => hl.1 (e ▸ hu)
          simpa using this
      rw [this]
    · rw [if_neg hx, ih hl.2, List.filter_cons, if_pos (by simpa using hx), List.map_cons]

theorem collectByType_eq (type : α → τ) (pre vs : List α) :
    collectByType type (buckets type pre) vs = buckets type (pre ++ vs) := by
  induction vs generalizing pre with
  | nil => simp [collectByType]
  | cons v vs ih =>
    have hm : type v ∈ distinct (pre.map type) ↔ type v ∈ pre.map type := mem_distinct _ _
    have step : (match PyDict.get? (buckets type pre) (type v) with
        | some bucket => collectByType type (PyDict.set (buckets type pre) (type v) (bucket ++ [v])) vs
        | none => collectByType type (PyDict.set (buckets type pre) (type v) [v]) vs) =
        collectByType type (buckets type (pre ++ [v])) vs := by
      unfold buckets
      rw [get?_tab]
      by_cases h : type v ∈ pre.map type
      · rw [if_pos (hm.2 h)]
        simp only
        rw [set_tab_mem _ (distinct_nodup _) _ _ _ (hm.2 h)]
        congr 1
        rw [List.map_append, List.map_singleton, distinct_snoc, if_pos h]
        apply List.map_congr_left
        intro u hu
        by_cases hu' : u = type v
        · subst hu'; simp
        · have : ¬ type v = u := fun e => hu' e.symm
          simp [hu', this]
      · rw [if_neg (fun e => h (hm.1 e))]
        simp only
        rw [set_tab_not_mem _ _ _ _ (fun e => h (hm.1 e))]
        congr 1
        rw [List.map_append, List.map_singleton, distinct_snoc, if_neg h, List.map_append]
        congr 1
        · apply List.map_congr_left
          intro u hu
          have : ¬ type v = u := fun e => h (hm.1 (e ▸ hu))
          simp [this]
        · have : pre.filter (fun w => decide (type w = type v)) = [] := by
            rw [List.filter_eq_nil_iff]
            intro w hw
            simp only [decide_eq_true_eq]
            intro e
            exact h (e ▸ List.mem_map_of_mem hw)
          simp [this]
    have e : pre ++ v :: vs = pre ++ [v] ++ vs := by simp
    rw [collectByType, e, ← ih]
    exact step

theorem popTypes_eq (tl : List τ) (l : List τ) (hl : l.Nodup) (f : τ → List α) :
    popTypes (l.map fun t => (t, f t)) tl =
      ((distinct tl).flatMap (fun t => if t ∈ l then f t else []),
       (l.filter (· ∉ tl)).map fun t => (t, f t)) := by
  induction tl generalizing l with
  | nil =>
    have : l.filter (fun x => decide (x ∉ ([] : List τ))) = l :=
      List.filter_eq_self.2 fun u hu => by simp
    simp only [popTypes, distinct, List.flatMap_nil, this]
  | cons t tl ih =>
    simp only [popTypes, get?_tab, del_tab l hl f t, ih (l.filter (· ≠ t)) (hl.filter _)]
    refine Prod.ext ?_ ?_
    · simp only [distinct, List.flatMap_cons]
      congr 1
      · by_cases h : t ∈ l <;> simp [h]
      · induction distinct tl with
        | nil => rfl
        | cons u us ihu =>
          simp only [List.flatMap_cons, ihu, List.filter_cons]
          by_cases h : u = t
          · subst h; simp
          · simp [h]
    · simp only [List.filter_filter]
      congr 1
      apply List.filter_congr
      intro u hu
      by_cases h1 : u = t <;> by_cases h2 : u ∈ tl <;> simp [h1, h2]

/-- C37, exactly what is yielded: the objects of each listed type in the listed order, then
those of the other types in order of first occurrence; always in the original order within a
type. -/
theorem C37_exact (type : α → τ) (objs : List α) (typelist : List τ) :
    iterateByType type objs typelist =
      (distinct typelist).flatMap (fun t => objs.filter fun v => type v = t) ++
      ((distinct (objs.map type)).filter (· ∉ typelist)).flatMap
        (fun t => objs.filter fun v => type v = t) := by
  unfold iterateByType
  have h0 : collectByType type [] objs = buckets type objs := by
    have := collectByType_eq type [] objs
    simpa [buckets, distinct] using this
  rw [h0, buckets, popTypes_eq _ _ (distinct_nodup _)]
  simp only
  congr 1
  · rw [List.flatMap, List.flatMap]
    congr 1
    apply List.map_congr_left
    intro t _
    by_cases h : t ∈ distinct (objs.map type)
    · rw [if_pos h]
    · rw [if_neg h]
      symm
      rw [List.filter_eq_nil_iff]
      intro w hw
      simp only [decide_eq_true_eq]
      intro e
      exact h ((mem_distinct _ _).2 (e ▸ List.mem_map_of_mem hw))
  · rw [List.flatMap_map]

theorem filter_type_flatMap (type : α → τ) (objs : List α) (ts : List τ) (hn : ts.Nodup) (t : τ) :
    (ts.flatMap fun u => objs.filter fun v => type v = u).filter (fun v => type v = t) =
      if t ∈ ts then objs.filter (fun v => type v = t) else [] := by
  induction ts with
  | nil => rfl
  | cons u ts ih =>
    simp only [List.nodup_cons] at hn
    simp only [List.flatMap_cons, List.filter_append, ih hn.2, List.filter_filter, List.mem_cons]
    by_cases h : t = u
    · subst h
      simp [hn.1]
    · have : objs.filter (fun v => decide (type v = t) && decide (type v = u)) = [] := by
        rw [List.filter_eq_nil_iff]
        intro w _
        simp only [Bool.and_eq_true, decide_eq_true_eq, not_and]
        intro e1 e2
        exact h (e1.symm.trans e2)
      simp [this, h]

/-- C37: within each type the original order is kept (and so nothing is lost or repeated). -/
theorem C37_stable (type : α → τ) (objs : List α) (typelist : List τ) (t : τ) :
    (iterateByType type objs typelist).filter (fun v => type v = t) =
      objs.filter (fun v => type v = t) := by
  rw [C37_exact, List.filter_append, filter_type_flatMap _ _ _ (distinct_nodup _),
    filter_type_flatMap _ _ _ ((distinct_nodup _).filter _)]
  simp only [List.mem_filter, mem_distinct, decide_not, Bool.not_eq_true', decide_eq_false_iff_not]
  by_cases h : t ∈ typelist
  · simp [h]
  · by_cases h2 : t ∈ objs.map type
    · simp [h, h2]
    · have : objs.filter (fun v => decide (type v = t)) = [] := by
        rw [List.filter_eq_nil_iff]
        intro w hw
        simp only [decide_eq_true_eq]
        intro e
        exact h2 (e ▸ List.mem_map_of_mem hw)
      simp [h, h2, this]

/-- C37: the yielded sequence is a permutation of the collected one. -/
theorem C37_permutation (type : α → τ) (objs : List α) (typelist : List τ) :
    (iterateByType type objs typelist).Perm objs := by
  classical
  rw [List.perm_iff_count]
  intro a
  have h := congrArg (List.count a) (C37_stable type objs typelist (type a))
  rw [List.count_filter (by simp), List.count_filter (by simp)] at h
  exact h

/-- Where a type goes: its first position in the list, or after the whole list. -/
def typeRank (typelist : List τ) (t : τ) : Nat := typelist.idxOf t

/-- C37: listed types come in the listed order, unlisted types after all of them. -/
theorem C37_order (type : α → τ) (objs : List α) (typelist : List τ) :
    (iterateByType type objs typelist).Pairwise
      (fun a b => typeRank typelist (type a) ≤ typeRank typelist (type b)) := by
  have hsorted : ∀ tl : List τ, (distinct tl).Pairwise (fun a b => tl.idxOf a ≤ tl.idxOf b) := by
    intro tl
    induction tl with
    | nil => simp [distinct]
    | cons t tl ih =>
      simp only [distinct, List.pairwise_cons]
      refine ⟨?_, ?_⟩
      · intro b _; simp [List.idxOf_cons_self]
      · refine (ih.filter _).imp_of_mem ?_
        intro a b ha hb hab
        simp only [List.mem_filter, decide_eq_true_eq] at ha hb
        have e : ∀ x, x ≠ t → (t :: tl).idxOf x = tl.idxOf x + 1 := by
          intro x hx
          have : (t == x) = false := by simpa using Ne.symm hx
          rw [List.idxOf_cons, this]
          rfl
        rw [e a ha.2, e b hb.2]
        omega
  have hflat : ∀ ts : List τ, ts.Pairwise (fun a b => typeRank typelist a ≤ typeRank typelist b) →
      (ts.flatMap fun u => objs.filter fun v => type v = u).Pairwise
        (fun a b => typeRank typelist (type a) ≤ typeRank typelist (type b)) := by
    intro ts
    induction ts with
    | nil => simp
    | cons u ts ih =>
      intro h
      simp only [List.pairwise_cons] at h
      simp only [List.flatMap_cons, List.pairwise_append]
      refine ⟨?_, ih h.2, ?_⟩
      · refine List.pairwise_of_forall_mem_list ?_
        intro a ha b hb
        simp only [List.mem_filter, decide_eq_true_eq] at ha hb
        rw [ha.2, hb.2]; exact Nat.le_refl _
      · intro a ha b hb
        simp only [List.mem_filter, decide_eq_true_eq, List.mem_flatMap] at ha hb
        obtain ⟨w, hw, _, hb⟩ := hb
        rw [ha.2, hb]
        exact h.1 w hw
  rw [C37_exact, List.pairwise_append]
  refine ⟨hflat _ (hsorted typelist), hflat _ ?_, ?_⟩
  · refine List.pairwise_of_forall_mem_list ?_
    intro a ha b hb
    simp only [List.mem_filter, decide_eq_true_eq] at ha hb
    unfold typeRank
    rw [List.idxOf_eq_length ha.2, List.idxOf_eq_length hb.2]
    exact Nat.le_refl _
  · intro a ha b hb
    simp only [List.mem_filter, decide_eq_true_eq, List.mem_flatMap] at ha hb
    obtain ⟨w, ⟨_, hw⟩, _, hb⟩ := hb
    unfold typeRank
    rw [hb, List.idxOf_eq_length hw]
    exact List.idxOf_le_length

/-- C37: objects of one type come together: whatever lies between two of them has that type. -/
theorem C37_contiguous (type : α → τ) (objs : List α) (typelist : List τ) (p m q : List α) (a b : α)
    (h : iterateByType type objs typelist = p ++ a :: (m ++ b :: q)) (hab : type a = type b) :
    ∀ x ∈ m, type x = type a := by
  rw [C37_exact, ← List.flatMap_append] at h
  have hn : (distinct typelist ++ (distinct (objs.map type)).filter (· ∉ typelist)).Nodup := by
    rw [List.nodup_append]
    refine ⟨distinct_nodup _, (distinct_nodup _).filter _, ?_⟩
    intro x hx y hy e
    subst e
    simp only [List.mem_filter, decide_eq_true_eq] at hy
    exact hy.2 ((mem_distinct _ _).1 hx)
  revert h hn
  generalize distinct typelist ++ (distinct (objs.map type)).filter (· ∉ typelist) = ts
  intro h hn
  induction ts generalizing p with
  | nil => simp at h
  | cons t ts ih =>
    simp only [List.nodup_cons] at hn
    simp only [List.flatMap_cons] at h
    have hrest : ∀ x ∈ ts.flatMap (fun u => objs.filter fun v => type v = u), type x ≠ t := by
      intro x hx e
      simp only [List.mem_flatMap, List.mem_filter, decide_eq_true_eq] at hx
      obtain ⟨u, hu, _, hxu⟩ := hx
      exact hn.1 (e ▸ hxu ▸ hu)
    rcases List.append_eq_append_iff.1 h with ⟨r, h1, h2⟩ | ⟨r, h1, h2⟩
    · exact ih r h2 hn.2
    · cases r with
      | nil =>
        exact ih [] (by simpa using h2.symm) hn.2
      | cons a' r =>
        simp only [List.cons_append, List.cons.injEq] at h2
        obtain ⟨rfl, h2⟩ := h2
        have hfa : ∀ x ∈ a :: r, type x = t := by
          intro x hx
          have : x ∈ objs.filter (fun v => type v = t) := by rw [h1]; simp [List.mem_append.2 (.inr hx)]
          simpa using (List.mem_filter.1 this).2
        have hat := hfa a (by simp)
        rcases List.append_eq_append_iff.1 h2 with ⟨s, g1, g2⟩ | ⟨s, g1, g2⟩
        · cases s with
          | nil =>
            simp only [List.append_nil] at g1
            intro x hx
            rw [hat]; exact hfa x (by rw [g1]; simp [hx])
          | cons b' s =>
            intro x hx
            rw [hat]; exact hfa x (by rw [g1]; simp [hx])
        · exfalso
          have : b ∈ s ++ b :: q := by simp
          rw [← g2] at this
          exact hrest b this (hab ▸ hat)

example : iterateByType (fun n : Nat => n % 4) [1, 2, 3, 4, 5, 6, 7, 8] [2, 0, 2] =
    [2, 6, 4, 8, 1, 5, 3, 7] := by decide
end

namespace Change
variable {O : Type}

/-! ## C38 -/

/-- When an item is shown: an unignored change always, an ignored change with show_ignored, an
unchanged item with show_unchanged. -/
def Visible (o : O) (s : ShowOpts) (c : Change O) : Bool :=
  (c.isChange && !c.isIgnored o) || (c.isChange && c.isIgnored o && s.showIgnored) ||
    (!c.isChange && s.showUnchanged)

mutual
/-- Every node of the tree in pre-order, with the path leading to it (from the root). -/
def paths (anc : List (Change O)) : Change O → List (List (Change O))
  | leaf h cmp b d => [anc ++ [leaf h cmp b d]]
  | super h sh b d cs => (anc ++ [super h sh b d cs]) :: pathsAll (anc ++ [super h sh b d cs]) cs
  | squashed h oc b d i => [anc ++ [squashed h oc b d i]]
def pathsAll (anc : List (Change O)) : List (Change O) → List (List (Change O))
  | [] => []
  | c :: cs => paths anc c ++ pathsAll anc cs
end

/-- The entry of the text report for a node at the end of a path: indented by its depth, marked
when ignored. -/
def reportEntry (o : O) (path : List (Change O)) : Str :=
  match path.getLast? with
  | none => []
  | some c => indentLine (path.length - 1)
      (if c.isChange && c.isIgnored o then [c.getDescription, " [IGNORED]".toList]
       else [c.getDescription])

theorem paths_prefix (c : Change O) (anc p : List (Change O)) (h : p ∈ paths anc c) :
    ∃ r, p = anc ++ c :: r := by
  induction c using Change.ind generalizing anc p with
  | hl hd cmp b d =>
    simp only [paths, List.mem_singleton] at h
    exact ⟨[], h⟩
  | hq hd oc b d i =>
    simp only [paths, List.mem_singleton] at h
    exact ⟨[], h⟩
  | hs hd sh b d cs ih =>
    simp only [paths, List.mem_cons] at h
    rcases h with h | h
    · exact ⟨[], h⟩
    · have key : ∀ (l : List (Change O)), (∀ c ∈ l, c ∈ cs) →
          p ∈ pathsAll (anc ++ [Change.super hd sh b d cs]) l →
          ∃ r, p = anc ++ Change.super hd sh b d cs :: r := by
        intro l hl
        induction l with
        | nil => intro h; simp [pathsAll] at h
        | cons x l ihl =>
          intro h
          simp only [pathsAll, List.mem_append] at h
          rcases h with h | h
          · obtain ⟨r, hr⟩ := ih x (hl x (by simp)) _ p h
            exact ⟨x :: r, by simpa using hr⟩
          · exact ihl (fun c hc => hl c (by simp [hc])) h
      exact key cs (fun _ h => h) h

theorem filter_paths_invisible (q : Change O → Bool) (c : Change O) (anc : List (Change O))
    (k : Nat) (hk : k ≤ anc.length) (h : q c = false) :
    (paths anc c).filter (fun p => (p.drop k).all q) = [] := by
  rw [List.filter_eq_nil_iff]
  intro p hp
  obtain ⟨r, rfl⟩ := paths_prefix c anc p hp
  rw [List.drop_append_of_le_length hk]
  simp [h]

theorem reportEntry_snoc (o : O) (anc : List (Change O)) (c : Change O) :
    reportEntry o (anc ++ [c]) = indentLine anc.length
      (if c.isChange && c.isIgnored o then [c.getDescription, " [IGNORED]".toList]
       else [c.getDescription]) := by
  unfold reportEntry
  rw [List.getLast?_concat]
  simp only [List.length_append, List.length_singleton, Nat.add_sub_cancel]

theorem emit_eq (o : O) (s : ShowOpts) (c : Change O) (n : Nat) (rest : List Str) :
    (if c.isChange then
      if c.isIgnored o then
        if s.showIgnored then indentLine n [c.getDescription, " [IGNORED]".toList] :: rest else []
      else indentLine n [c.getDescription] :: rest
    else if s.showUnchanged then indentLine n [c.getDescription] :: rest else []) =
    if Visible o s c then indentLine n (if c.isChange && c.isIgnored o then
      [c.getDescription, " [IGNORED]".toList] else [c.getDescription]) :: rest else [] := by
  unfold Visible
  generalize c.isChange = b1
  generalize c.isIgnored o = b2
  cases b1 <;> cases b2 <;> cases s.showIgnored <;> cases s.showUnchanged <;> rfl

theorem indentChange_eq (o : O) (s : ShowOpts) (c : Change O) (anc : List (Change O))
    (ha : anc.all (Visible o s) = true) :
    indentChange o s anc.length c =
      ((paths anc c).filter (fun p => p.all (Visible o s))).map (reportEntry o) := by
  induction c using Change.ind generalizing anc with
  | hl hd cmp b d =>
    have := emit_eq o s (.leaf hd cmp b d) anc.length []
    simp only [indentChange]
    rw [this]
    simp only [paths, List.filter_cons, List.all_append, ha, List.all_cons, List.all_nil,
      Bool.and_true, Bool.true_and, List.filter_nil]
    by_cases hv : Visible o s (.leaf hd cmp b d) = true
    · rw [if_pos hv, if_pos hv, List.map_singleton, reportEntry_snoc]
    · rw [if_neg hv, if_neg hv]; rfl
  | hq hd oc b d i =>
    have := emit_eq o s (.squashed hd oc b d i) anc.length []
    simp only [indentChange]
    rw [this]
    simp only [paths, List.filter_cons, List.all_append, ha, List.all_cons, List.all_nil,
      Bool.and_true, Bool.true_and, List.filter_nil]
    by_cases hv : Visible o s (.squashed hd oc b d i) = true
    · rw [if_pos hv, if_pos hv, List.map_singleton, reportEntry_snoc]
    · rw [if_neg hv, if_neg hv]; rfl
  | hs hd sh b d cs ih =>
    have := emit_eq o s (.super hd sh b d cs) anc.length (indentAll o s (anc.length + 1) cs)
    simp only [indentChange]
    rw [this]
    by_cases hv : Visible o s (.super hd sh b d cs) = true
    · have hall : (anc ++ [Change.super hd sh b d cs]).all (Visible o s) = true := by
        simp [List.all_append, ha, hv]
      have key : ∀ (l : List (Change O)), (∀ c ∈ l, c ∈ cs) →
          indentAll o s (anc.length + 1) l =
            ((pathsAll (anc ++ [Change.super hd sh b d cs]) l).filter
              (fun p => p.all (Visible o s))).map (reportEntry o) := by
        intro l hl
        induction l with
        | nil => rfl
        | cons x l ihl =>
          simp only [indentAll, pathsAll, List.filter_append, List.map_append,
            ihl (fun c hc => hl c (by simp [hc]))]
          have := ih x (hl x (by simp)) _ hall
          rw [List.length_append] at this
          rw [← this]
          rfl
      rw [if_pos hv]
      simp only [paths, List.filter_cons, hall, if_true, List.map_cons, reportEntry_snoc]
      rw [key cs (fun _ h => h)]
    · have h0 := filter_paths_invisible (Visible o s) (.super hd sh b d cs) anc 0 (Nat.zero_le _)
        (by simpa using hv)
      simp only [List.drop_zero] at h0
      rw [h0, if_neg hv]
      rfl

/-- C38, text report: the entries are, in pre-order, those of exactly the changes all of whose
ancestors (itself included) are shown. -/
theorem C38_text_report (o : O) (s : ShowOpts) (c : Change O) :
    indentChange o s 0 c =
      ((paths [] c).filter (fun p => p.all (Visible o s))).map (reportEntry o) :=
  indentChange_eq o s c [] rfl

theorem hexDigit_ascii (n : Nat) (h : n < 16) : (hexDigit n).toNat < 128 := by
  unfold hexDigit
  have : n = 0 ∨ n = 1 ∨ n = 2 ∨ n = 3 ∨ n = 4 ∨ n = 5 ∨ n = 6 ∨ n = 7 ∨ n = 8 ∨ n = 9 ∨ n = 10 ∨
    n = 11 ∨ n = 12 ∨ n = 13 ∨ n = 14 ∨ n = 15 := by omega
  rcases this with rfl | rfl | rfl | rfl | rfl | rfl | rfl | rfl | rfl | rfl | rfl | rfl | rfl | rfl |
    rfl | rfl <;> decide

theorem hexN_ascii (k n : Nat) : ∀ c ∈ hexN k n, c.toNat < 128 := by
  induction k generalizing n with
  | zero => simp [hexN]
  | succ k ih =>
    intro c hc
    simp only [hexN, List.mem_append, List.mem_singleton] at hc
    rcases hc with hc | hc
    · exact ih _ c hc
    · subst hc; exact hexDigit_ascii _ (Nat.mod_lt _ (by decide))

/-- C38, `_indent` is safe to write in ASCII, and leaves ASCII text as it is. -/
theorem C38_indent_ascii (s : Str) :
    (∀ c ∈ asciiSafe s, c.toNat < 128) ∧
    ((∀ c ∈ s, c.toNat < 128) → asciiSafe s = s) := by
  constructor
  · intro c hc
    simp only [asciiSafe, List.mem_flatMap] at hc
    obtain ⟨x, _, hx⟩ := hc
    have hb : ∀ k n (y : Char), y.toNat < 128 → c ∈ '\\' :: y :: hexN k n → c.toNat < 128 := by
      intro k n y hy hc
      simp only [List.mem_cons] at hc
      rcases hc with rfl | rfl | hc
      · decide
      · exact hy
      · exact hexN_ascii _ _ c hc
    unfold backslash at hx
    split at hx
    · simp only [List.mem_singleton] at hx; subst hx; assumption
    · split at hx
      · exact hb _ _ _ (by decide) hx
      · split at hx
        · exact hb _ _ _ (by decide) hx
        · exact hb _ _ _ (by decide) hx
  · intro h
    unfold asciiSafe
    induction s with
    | nil => rfl
    | cons c s ih =>
      rw [List.flatMap_cons, ih (fun x hx => h x (by simp [hx]))]
      simp [backslash, h c (by simp)]

/-- The data of one JSON object. -/
structure JsonRow where
  depth : Nat
  cls : String
  isChange : Bool
  description : Str
  label : Str
  isIgnored : Bool
  isAddition : Bool
  isRemoval : Bool
  entry : Option Str
  hasChildren : Bool
  deriving DecidableEq

mutual
/-- The objects of a JSON report in pre-order, with their depth. -/
def Json.rows (depth : Nat) : Json → List JsonRow
  | .obj cls c d l i a r e none => [⟨depth, cls, c, d, l, i, a, r, e, false⟩]
  | .obj cls c d l i a r e (some cs) => ⟨depth, cls, c, d, l, i, a, r, e, true⟩ :: Json.rowsAll (depth + 1) cs
def Json.rowsAll (depth : Nat) : List Json → List JsonRow
  | [] => []
  | j :: js => Json.rows depth j ++ Json.rowsAll depth js
end

/-- What the JSON report says about the node at the end of a path. -/
def jsonRow (o : O) (path : List (Change O)) : Option JsonRow :=
  path.getLast?.map fun c =>
    { depth := path.length - 1, cls := c.hdr.typeName, isChange := c.isChange,
      description := c.getDescription, label := c.hdr.label, isIgnored := c.isIgnored o,
      isAddition := c.hdr.kind == .addition, isRemoval := c.hdr.kind == .removal,
      entry := c.hdr.entry.filter fun e => !e.isEmpty,
      hasChildren := match c with | .super .. => true | _ => false }

theorem entryShown_eq (e : Option Str) : entryShown e = e.filter fun e => !e.isEmpty := by
  match e with
  | none => rfl
  | some [] => rfl
  | some (a :: l) => rfl

theorem kept_eq (o : O) (s : ShowOpts) (x : Change O) (l : List (Change O)) :
    toJsonKept o s (x :: l) = if Visible o s x then toJson o s x :: toJsonKept o s l
      else toJsonKept o s l := by
  simp only [toJsonKept]
  unfold Visible
  generalize x.isChange = b1
  generalize x.isIgnored o = b2
  cases b1 <;> cases b2 <;> cases s.showIgnored <;> cases s.showUnchanged <;> rfl

theorem toJson_eq (o : O) (s : ShowOpts) (c : Change O) (anc : List (Change O)) :
    (Json.rows anc.length (toJson o s c)).map some =
      ((paths anc c).filter (fun p => (p.drop (anc.length + 1)).all (Visible o s))).map (jsonRow o) := by
  induction c using Change.ind generalizing anc with
  | hl hd cmp b d =>
    simp [paths, toJson, Json.rows, jsonRow, entryShown_eq, hdr]
  | hq hd oc b d i =>
    simp [paths, toJson, Json.rows, jsonRow, entryShown_eq, hdr]
  | hs hd sh b d cs ih =>
    have key : ∀ (l : List (Change O)), (∀ c ∈ l, c ∈ cs) →
        (Json.rowsAll (anc.length + 1) (toJsonKept o s l)).map some =
          ((pathsAll (anc ++ [Change.super hd sh b d cs]) l).filter
            (fun p => (p.drop (anc.length + 1)).all (Visible o s))).map (jsonRow o) := by
      intro l hl
      induction l with
      | nil => rfl
      | cons x l ihl =>
        have ihl := ihl (fun c hc => hl c (by simp [hc]))
        have hx := ih x (hl x (by simp)) (anc ++ [Change.super hd sh b d cs])
        rw [List.length_append, List.length_singleton] at hx
        simp only [pathsAll, List.filter_append, List.map_append, ← ihl]
        have hvis : Visible o s x = true →
            (paths (anc ++ [Change.super hd sh b d cs]) x).filter
              (fun p => (p.drop (anc.length + 1)).all (Visible o s)) =
            (paths (anc ++ [Change.super hd sh b d cs]) x).filter
              (fun p => (p.drop (anc.length + 1 + 1)).all (Visible o s)) := by
          intro hv
          apply List.filter_congr
          intro p hp
          obtain ⟨r, rfl⟩ := paths_prefix _ _ _ hp
          have e1 : (anc ++ [Change.super hd sh b d cs] ++ x :: r).drop (anc.length + 1) = x :: r := by
            rw [List.drop_append_of_le_length (by simp)]; simp
          have e2 : (anc ++ [Change.super hd sh b d cs] ++ x :: r).drop (anc.length + 1 + 1) = r := by
            rw [← List.drop_drop, e1]; rfl
          rw [e1, e2]
          simp [hv]
        have hinv : Visible o s x = false →
            (paths (anc ++ [Change.super hd sh b d cs]) x).filter
              (fun p => (p.drop (anc.length + 1)).all (Visible o s)) = [] :=
          fun hv => filter_paths_invisible _ x _ _ (by simp) hv
        rw [kept_eq]
        by_cases hv : Visible o s x = true
        · rw [if_pos hv, hvis hv, ← hx]
          simp [Json.rowsAll]
        · rw [if_neg hv, hinv (by simpa using hv)]
          simp
    have hd0 : (anc ++ [Change.super hd sh b d cs]).drop (anc.length + 1) = [] := by
      apply List.drop_eq_nil_of_le; simp
    simp only [paths, toJson, Json.rows, List.map_cons, key cs (fun _ h => h), List.filter_cons, hd0,
      List.all_nil, if_true]
    congr 1
    simp [jsonRow, entryShown_eq, hdr]

/-- C38, JSON report: the root is always there; below it, the objects are those of exactly the
changes all of whose ancestors below the root (itself included) are shown, nested as in the
tree. -/
theorem C38_json_report (o : O) (s : ShowOpts) (c : Change O) :
    (Json.rows 0 (toJson o s c)).map some =
      ((paths [] c).filter (fun p => (p.drop 1).all (Visible o s))).map (jsonRow o) :=
  toJson_eq o s c []

def demoChecked : Change Bool := match check demoTree with | .ok c => c | .error _ => demoTree

example : String.ofList (textReport true {} demoChecked) =
    "JavaClassChange changed\n  Methods changed\n    Method added changed\n" ∧
    String.ofList (textReport true { showIgnored := true, showUnchanged := true } demoChecked) =
    "JavaClassChange changed\n  Version changed [IGNORED]\n  Name unchanged\n  Methods changed\n    Method added changed\n" ∧
    String.ofList (asciiSafe "é→𝕏".toList) = "\\xe9\\u2192\\U0001d54f" := by decide +kernel

example : (Json.rows 0 (toJson true {} demoChecked)).map (fun r => (r.depth, r.cls)) =
    [(0, "JavaClassChange"), (1, "Methods"), (2, "MethodAdded")] := by decide

end Change
end Javatools
