import Verif.Props.Lifecycle

/-! For exactly which changes collecting the children afresh alters no answer, C147. -/

namespace Javatools

namespace Obj

variable {O : Type}

/-- Whether the children of the change are asked under these options. -/
def AsksChildren (h : Hdr O) (x : O) : Prop :=
  match h.ign with
  | .inherit => True
  | .only _ => False
  | .orElse rule => rule x = false

/-- The answer of a composite, from its children. -/
def answerOf (h : Hdr O) (changed : Bool) (x : O) (l : List (Obj O)) : Res Bool :=
  let base : Res Bool := if changed then (if l.isEmpty then .ok false else (allIgnored x l).1) else .ok false
  match h.ign with
  | .inherit => base
  | .only rule => .ok (rule x)
  | .orElse rule => if rule x then .ok true else base

theorem isIgnored_fst (x : O) (h : Hdr O) (short impl err changed desc) (cache l : List (Obj O))
    (hk : (super h short impl err changed desc cache).kids = .ok l) :
    (isIgnored x (super h short impl err changed desc cache)).1 =
      answerOf h (super h short impl err changed desc cache).isChange x l := by
  rw [isIgnored_super]
  unfold answerOf
  simp only [hk]
  cases (super h short impl err changed desc cache).isChange <;> cases h.ign <;> cases l <;>
    simp <;> split <;> simp

theorem answer_iff (h : Hdr O) (changed : Bool) (x : O) (l k : List (Obj O)) (hl : k.length = l.length) :
    answerOf h changed x l = answerOf h changed x k ↔
      (changed = true → AsksChildren h x → (allIgnored x l).1 = (allIgnored x k).1) := by
  have he : l.isEmpty = k.isEmpty := by cases l <;> cases k <;> simp_all
  have hnil : l.isEmpty = true → (allIgnored x l).1 = (allIgnored x k).1 := by
    intro e
    rw [List.isEmpty_iff.1 e, List.isEmpty_iff.1 (he.symm.trans e)]
  unfold answerOf AsksChildren
  rw [← he]
  cases changed with
  | false => simp
  | true =>
    cases hx : l.isEmpty with
    | true => simp [hnil hx]
    | false =>
      cases h.ign with
      | inherit => simp
      | only rule => simp
      | orElse rule => cases hr : rule x <;> simp [hr]

/-- C147, exactly: collecting afresh after a check alters no answer, except that of a composite without a rule of its
own that found a change, whose unchecked children may be ignored otherwise than the checked ones. -/
theorem C147_exact (o : Obj O) (hnew : New o) (hok : (check o).1 = none) :
    (∀ q : Ask O, (ask q ((check o).2.collect true).2).1 = (ask q (check o).2).1) ↔
    ∀ h impl changed desc cache, o = super h none impl none changed desc cache → (check o).2.isChange = true →
      ∀ x, AsksChildren h x → (allIgnored x impl).1 = (allIgnored x (checkAll impl false).2).1 := by
  cases o with
  | leaf h cmp changed desc =>
    have : ∀ p : Obj O, (∃ h c d e, p = leaf h c d e) → (p.collect true).2 = p := by
      rintro p ⟨h, c, d, e, rfl⟩; rfl
    have hl : ∃ h' c d e, (check (leaf h cmp changed desc)).2 = leaf h' c d e := by
      cases cmp with
      | none => exact ⟨_, _, _, _, rfl⟩
      | some r =>
        cases r with
        | error e => exact ⟨_, _, _, _, rfl⟩
        | ok p => exact ⟨_, _, _, _, rfl⟩
    rw [this _ hl]
    exact ⟨fun _ h impl changed desc cache e => (nomatch e), fun _ _ => rfl⟩
  | squashed h oc changed desc ignored =>
    exact ⟨fun _ h impl changed desc cache e => (nomatch e), fun _ _ => rfl⟩
  | super h short impl err changed desc cache =>
    have hcache : cache = [] := hnew
    subst hcache
    cases short with
    | some b =>
      refine ⟨fun _ h impl changed desc cache e => (nomatch e), fun _ q => ?_⟩
      cases err with
      | some e => cases q <;> rfl
      | none =>
        cases impl with
        | nil => cases q <;> rfl
        | cons y ys =>
          cases q with
          | isIgnored x =>
            have h1 := isIgnored_fst x h (some b) (y :: ys) none b none (y :: ys) (y :: ys) rfl
            have h2 := isIgnored_fst x h (some b) (y :: ys) none b none [] (y :: ys) rfl
            exact congrArg (Except.map Ans.bool) (h1.trans h2.symm)
          | _ => rfl
    | none =>
      cases err with
      | some e => simp [check] at hok
      | none =>
        cases hr : (checkAll impl false).1 with
        | error e => simp [check, hr] at hok
        | ok c =>
          have hck : (check (super h none impl none changed desc [])).2 =
              super h none impl none c none (checkAll impl false).2 := by
            simp [check, hr]
          have hlen := checkAll_length impl false
          rw [hck]
          generalize hkids : (checkAll impl false).2 = kids at *
          have hcol : ((super h none impl none c none kids).collect true).2 = super h none impl none c none impl := rfl
          rw [hcol]
          have hk1 : (super h none impl none c none impl).kids = .ok impl := by
            simp only [Obj.kids]; split <;> rfl
          have hk2 : (super h none impl none c none kids).kids = .ok kids := by
            simp only [Obj.kids]
            split
            · rename_i he
              have : kids = [] := List.isEmpty_iff.1 he
              subst this
              have : impl = [] := List.length_eq_zero_iff.1 hlen.symm
              rw [this]
            · rfl
          have key := fun x => answer_iff h (super h none impl none c none kids).isChange x impl kids hlen
          have i1 := fun x => isIgnored_fst x h none impl none c none impl impl hk1
          have i2 := fun x => isIgnored_fst x h none impl none c none kids kids hk2
          constructor
          · rintro hq h' impl' changed' desc' cache' e hch x hx
            cases e
            have := hq (.isIgnored x)
            have h3 : (isIgnored x (super h none impl none c none impl)).1 =
                (isIgnored x (super h none impl none c none kids)).1 := by
              simp only [ask] at this
              generalize (isIgnored x (super h none impl none c none impl)).1 = r1 at this ⊢
              generalize (isIgnored x (super h none impl none c none kids)).1 = r2 at this ⊢
              cases r1 <;> cases r2 <;> simp_all [Except.map]
            rw [i1, i2] at h3
            rw [hkids]
            exact (key x).1 h3 hch hx
          · intro hall q
            have hall := hall h impl changed desc [] rfl
            cases q with
            | isIgnored x =>
              refine congrArg (Except.map Ans.bool) ?_
              rw [i1, i2]
              exact (key x).2 fun hch hx => by rw [hkids] at hall; exact hall hch x hx
            | count =>
              simp only [ask, collect]
              split <;> split <;> simp [Except.map, hlen]
            | _ => rfl

/-- The demonstration change is changed by collecting afresh: its children ask to be checked. -/
example : ¬ ∀ q : Ask Unit, (ask q ((check demoObj).2.collect true).2).1 = (ask q (check demoObj).2).1 := by
  rw [C147_exact demoObj rfl (by decide)]
  intro h
  have := h _ _ _ _ _ rfl (by decide) () trivial
  exact absurd this (by decide)

/-- A change whose one part does not differ. -/
def calmObj : Obj Unit :=
  super { typeName := "ClassInfoChange", label := "Class information".toList } none
    [leaf { typeName := "ClassSuperclassChange", label := "Superclass".toList }
      (some (.ok (false, none))) false none] none false none []

/-- That one is not altered. -/
example : ∀ q : Ask Unit, (ask q ((check calmObj).2.collect true).2).1 = (ask q (check calmObj).2).1 := by
  rw [C147_exact calmObj rfl (by decide)]
  intro h impl changed desc cache e hch
  exact absurd hch (by decide)

end Obj

end Javatools
