import Verif.Props.ClassPageText
/-
C157 and C158 for the HTML pages that are made from classes.
-/
namespace Javatools
open Spec

/-- Each view is that of a delta with the checked change of this delta. -/
theorem viewsOf_checked {view : MemberDelta → Change Opts → Res MemberView} {f : MemberDelta → Change Opts} :
    ∀ {ds : List MemberDelta} {cs : List (Change Opts)} {b b' : Bool} {vs : List MemberView},
      Change.checkAll (ds.map f) b = .ok (cs, b') → viewsOf view ds cs = .ok vs →
      (∀ v ∈ vs, ∃ d ∈ ds, ∃ c, (f d).check = .ok c ∧ view d c = .ok v) ∧
      ∀ d ∈ ds, ∃ v ∈ vs, ∃ c, (f d).check = .ok c ∧ view d c = .ok v := by
  intro ds
  induction ds with
  | nil =>
    intro cs b b' vs _ h
    simp only [viewsOf, Except.ok.injEq] at h
    subst h
    simp
  | cons d ds ih =>
    intro cs b b' vs hc h
    rw [List.map_cons] at hc
    obtain ⟨c, cs', b'', rfl, h1, hc⟩ := checkAll_step hc
    rw [viewsOf] at h
    split at h
    · simp at h
    · rename_i w hw
      split at h
      · simp at h
      · rename_i ws hws
        simp only [Except.ok.injEq] at h
        subst h
        obtain ⟨i1, i2⟩ := ih hc hws
        constructor
        · intro v hv
          rcases List.mem_cons.1 hv with rfl | hv
          · exact ⟨d, by simp, c, h1, hw⟩
          · obtain ⟨d', h2, h3⟩ := i1 v hv
            exact ⟨d', by simp [h2], h3⟩
        · intro d' hd
          rcases List.mem_cons.1 hd with rfl | hd
          · exact ⟨w, by simp, c, h1, hw⟩
          · obtain ⟨v, h2, h3⟩ := i2 d' hd
            exact ⟨v, by simp [h2], h3⟩

theorem members_checked {E : ClassPageEnv} {o : Opts} {view : MemberDelta → Change Opts → Res MemberView}
    {name label what : String} {children : Member → Member → List (Change Opts)} {lp rp : Pool}
    {ls rs : List Member} {c : Change Opts} {v : MembersView} {ds : List MemberDelta}
    (hd : sortedDeltas (fun m => m.identifier lp E.print.lim) (fun m => m.identifier rp E.print.lim) ls rs = .ok ds)
    (hc : (membersChange E.texts E.print.lim name label what children lp rp ls rs).check = .ok c)
    (hv : membersViewOf E o view lp rp ls rs c = .ok v) :
    (∀ k ∈ v.kids, ∃ d ∈ ds, ∃ c, (deltaChange E.texts what children lp rp d).check = .ok c ∧ view d c = .ok k) ∧
    ∀ d ∈ ds, ∃ k ∈ v.kids, ∃ c, (deltaChange E.texts what children lp rp d).check = .ok c ∧ view d c = .ok k := by
  have h2 := (members_made hd hc hv).2
  unfold membersChange at hc
  simp only [hd] at hc
  rw [Change.check] at hc
  split at hc
  · simp at hc
  · rename_i kids b hk
    simp only [Except.ok.injEq] at hc
    subst hc
    exact viewsOf_checked hk h2

/-- The first child of a checked composite. -/
theorem first_child {h : Hdr Opts} {b : Bool} {desc : Option Str} {x : Change Opts} {cs : List (Change Opts)}
    {c : Change Opts} (hc : (Change.super h none b desc (x :: cs)).check = .ok c) :
    ∃ y ys, c.collect = y :: ys ∧ x.check = .ok y := by
  rw [Change.check] at hc
  split at hc
  · simp at hc
  · rename_i kids b' hk
    simp only [Except.ok.injEq] at hc
    subst hc
    obtain ⟨y, ys, _, rfl, h1, _⟩ := checkAll_step hk
    exact ⟨y, ys, rfl, h1⟩

/-- Two equal values are no change. -/
theorem leaf_same {name label : String} {ign : IgnoreRule Opts} {a b : PVal} {t u : Res Str} {y : Change Opts}
    (he : pyEq a b = true) (h : (genericLeaf name label ign (differs pyEq (.ok a) (.ok b)) t u).check = .ok y) :
    y.isChange = false ∧ y.hdr.typeName = name := by
  unfold genericLeaf at h
  have : checkImpl label.toList (differs pyEq (.ok a) (.ok b)) t u = .ok (false, none) := by
    simp only [differs, he, checkImpl, Bool.not_true]
  rw [this] at h
  simp only [Change.check, Except.ok.injEq] at h
  subst h
  exact ⟨rfl, rfl⟩

theorem childNamed_first {name : String} {y : Change Opts} {ys : List (Change Opts)} (h : y.hdr.typeName = name) :
    childNamed name (y :: ys) = .ok y := by
  unfold childNamed
  rw [List.find?_cons_of_pos (by simp [h])]

theorem askSubs_first {x : Res Sub} {xs : List (Res Sub)} {ss : List Sub} (h : askSubs (x :: xs) = .ok ss) :
    ∃ s rest, ss = s :: rest ∧ x = .ok s := by
  cases x with
  | error e => simp [askSubs] at h
  | ok s =>
    rw [askSubs] at h
    split at h
    · simp at h
    · simp only [Except.ok.injEq] at h
      exact ⟨s, _, h.symm, rfl⟩

theorem askSub_unchanged {left right : Res Str} {s : Sub} (h : askSub false (.ok true) left right = .ok s) :
    s.changed = false ∧ s.shows = true := by
  unfold askSub at h
  simp only [Bool.false_eq_true, reduceIte] at h
  split at h
  · simp at h
  · simp only [Except.ok.injEq] at h
    subst h
    exact ⟨rfl, rfl⟩

theorem not_tidy {s : Sub} {rest : List Sub} (h : s.changed = false ∧ s.shows = true) : ¬ TidySubs (s :: rest) := by
  intro ht
  have := ht 0 (by omega) s rfl
  simp [h.1, h.2] at this

/-- A kept field leaves a cell open. -/
theorem field_untidy {E : ClassPageEnv} {o : Opts} {lp rp : Pool} {a b : Member} {n : Str} {c : Change Opts}
    {k : MemberView} (ha : a.getName lp E.print.lim = .ok (.str n)) (hb : b.getName rp E.print.lim = .ok (.str n))
    (hc : (deltaChange E.texts "Field" (fieldChildren E.texts E.print.lim E.print.depth lp rp) lp rp
      (.changed a b)).check = .ok c) (h : fieldView E o lp rp (.changed a b) c = .ok k) : ¬ k.Tidy := by
  unfold deltaChange fieldChildren at hc
  obtain ⟨y, ys, hy, h1⟩ := first_child hc
  rw [ha, hb] at h1
  obtain ⟨h2, h3⟩ := leaf_same (by simp [pyEq]) h1
  unfold fieldView at h
  obtain ⟨_, _, h⟩ := except_bind_ok h
  obtain ⟨ss, e, h⟩ := except_bind_ok h
  obtain ⟨_, _, h⟩ := except_bind_ok h
  obtain ⟨_, _, h⟩ := except_bind_ok h
  obtain ⟨_, _, h⟩ := except_bind_ok h
  obtain ⟨_, _, h⟩ := except_bind_ok h
  simp only [Except.ok.injEq] at h
  subst h
  unfold fieldSubs at e
  obtain ⟨s, rest, rfl, hs⟩ := askSubs_first e
  unfold askChild at hs
  rw [hy, childNamed_first h3] at hs
  simp only [h2] at hs
  exact not_tidy (askSub_unchanged hs)

/-- A kept method leaves a cell open. -/
theorem method_untidy {E : ClassPageEnv} {o : Opts} {lp rp : Pool} {a b : Member} {n : Str} {c : Change Opts}
    {k : MemberView} (ha : a.getName lp E.print.lim = .ok (.str n)) (hb : b.getName rp E.print.lim = .ok (.str n))
    (hc : (deltaChange E.texts "Method" (methodChildren E.texts E.print.lim E.print.depth lp rp) lp rp
      (.changed a b)).check = .ok c) (h : methodView E o lp rp (.changed a b) c = .ok k) : ¬ k.Tidy := by
  unfold methodView at h
  obtain ⟨_, _, h⟩ := except_bind_ok h
  obtain ⟨ss, e, h⟩ := except_bind_ok h
  obtain ⟨_, _, h⟩ := except_bind_ok h
  obtain ⟨_, _, h⟩ := except_bind_ok h
  obtain ⟨_, _, h⟩ := except_bind_ok h
  obtain ⟨_, _, h⟩ := except_bind_ok h
  obtain ⟨lc, hlc, h⟩ := except_bind_ok h
  obtain ⟨rc, hrc, h⟩ := except_bind_ok h
  obtain ⟨_, _, h⟩ := except_bind_ok h
  obtain ⟨_, _, h⟩ := except_bind_ok h
  simp only [Except.ok.injEq] at h
  subst h
  unfold deltaChange methodChildren at hc
  simp only [hlc, hrc] at hc
  obtain ⟨y, ys, hy, h1⟩ := first_child hc
  rw [ha, hb] at h1
  obtain ⟨h2, h3⟩ := leaf_same (by simp [pyEq]) h1
  unfold methodSubs at e
  obtain ⟨s, rest, rfl, hs⟩ := askSubs_first e
  unfold askChild at hs
  rw [hy, childNamed_first h3] at hs
  simp only [h2] at hs
  exact not_tidy (askSub_unchanged hs)

section
variable {E : ClassPageEnv} {o : Opts} {l r : ClassInfo} {p : ClassPage}
variable (h : classReportPage E o l r = .ok p) (hl : JavaMembers E.print.lim l) (hr : JavaMembers E.print.lim r)
include h hl hr

theorem fields_tidy : (∀ k ∈ p.fields.kids, k.Tidy) ↔
    ∀ a ∈ l.fields, ∀ b ∈ r.fields, ¬ SameField E.print.lim l.pool r.pool a b := by
  obtain ⟨ds, hd, _, hf, hm⟩ := fields_fates hl hr
  obtain ⟨c, hc, hv⟩ := (madeFrom h).fields
  obtain ⟨h1, h2⟩ := members_checked hd hc hv
  constructor
  · intro ht a ha b hb hs
    obtain ⟨d, hdm, e⟩ := List.mem_map.1 ((hf .kept a).2 ⟨ha, b, hb, hs⟩)
    cases d with
    | added x => simp [MemberDelta.fate] at e
    | removed x => simp [MemberDelta.fate] at e
    | changed a' b' =>
      obtain ⟨k, hk, c', hc', hk'⟩ := h2 _ hdm
      obtain ⟨n, t, u, i1, i2⟩ := (hm _ _ hdm).2.2
      exact field_untidy i1.name i2.name hc' hk' (ht k hk)
  · intro hno k hk
    obtain ⟨d, hdm, c', _, hk'⟩ := h1 k hk
    cases d with
    | added x => simp only [fieldView, Except.ok.injEq] at hk'; subst hk'; trivial
    | removed x => simp only [fieldView, Except.ok.injEq] at hk'; subst hk'; trivial
    | changed a b =>
      obtain ⟨ha, hb, hs⟩ := hm a b hdm
      exact absurd hs (hno a ha b hb)

/-- Every method is a removed one. -/
theorem methods_tidy : (∀ k ∈ p.methods.kids, k.Tidy) ↔ r.methods = [] := by
  obtain ⟨ds, hd, _, hf, hm⟩ := methods_fates hl hr
  obtain ⟨c, hc, hv⟩ := (madeFrom h).methods
  obtain ⟨h1, h2⟩ := members_checked hd hc hv
  constructor
  · intro ht
    have hdel : ∀ d ∈ ds, ∃ x, d = .removed x := by
      intro d hdm
      obtain ⟨k, hk, c', hc', hk'⟩ := h2 _ hdm
      cases d with
      | added x =>
        unfold methodView at hk'
        obtain ⟨_, _, hk'⟩ := except_bind_ok hk'
        obtain ⟨_, _, hk'⟩ := except_bind_ok hk'
        simp only [Except.ok.injEq] at hk'
        subst hk'
        exact (ht _ hk).elim
      | removed x => exact ⟨x, rfl⟩
      | changed a b =>
        obtain ⟨n, args, t, u, i1, i2, _⟩ := (hm _ _ hdm).2.2
        exact absurd (ht k hk) (method_untidy i1.name i2.name hc' hk')
    refine List.eq_nil_iff_forall_not_mem.2 fun b hb => ?_
    by_cases hs : ∃ a ∈ l.methods, SameMethod E.print.lim l.pool r.pool a b
    · obtain ⟨a, ha, hs⟩ := hs
      obtain ⟨d, hdm, e⟩ := List.mem_map.1 ((hf .kept a).2 ⟨ha, b, hb, hs⟩)
      obtain ⟨x, rfl⟩ := hdel d hdm
      simp [MemberDelta.fate] at e
    · obtain ⟨d, hdm, e⟩ := List.mem_map.1 ((hf .added b).2 ⟨hb, fun a ha hs' => hs ⟨a, ha, hs'⟩⟩)
      obtain ⟨x, rfl⟩ := hdel d hdm
      simp [MemberDelta.fate] at e
  · intro hno k hk
    obtain ⟨d, hdm, c', _, hk'⟩ := h1 k hk
    cases d with
    | added x =>
      have := ((hf .added x).1 (List.mem_map.2 ⟨_, hdm, rfl⟩)).1
      rw [hno] at this
      simp at this
    | removed x =>
      unfold methodView at hk'
      obtain ⟨_, _, hk'⟩ := except_bind_ok hk'
      obtain ⟨_, _, hk'⟩ := except_bind_ok hk'
      simp only [Except.ok.injEq] at hk'
      subst hk'
      trivial
    | changed a b =>
      have := (hm a b hdm).2.1
      rw [hno] at this
      simp at this

variable (hpl : PlainTexts E.print l) (hpr : PlainTexts E.print r)
include hpl hpr

/-- C157 for the page of two classes: the tags are those of the templates, if the names of the
classes and the texts of the annotations have none. -/
theorem C157_classes : tagsOf p.html = fragTags (classFrags p) :=
  tagsOf_render (clean_page p (page_clean h hl hr hpl hpr))

/-- C158 for the page of two classes: it is well-formed for exactly the classes without a common
field where the new class has no method at all, and the constant pools are the same or have no
constant in common at the same place. -/
theorem C158_classes : WellFormed p.html ↔
    (∀ a ∈ l.fields, ∀ b ∈ r.fields, ¬ SameField E.print.lim l.pool r.pool a b) ∧ r.methods = [] ∧
      (p.pool.verdict.changed = true → ∀ x ∈ p.pool.rows, x.right.isSome = true) := by
  rw [C158_exact p (page_clean h hl hr hpl hpr), ← fields_tidy h hl hr, ← methods_tidy h hl hr]
  exact ⟨fun ⟨a, b, c⟩ => ⟨b, c, a⟩, fun ⟨b, c, a⟩ => ⟨a, b, c⟩⟩
end

/-- A class without members. -/
def emptyPageClass : ClassInfo := { oldPageClass with fields := [], methods := [] }

example : (classReportPage pageEnv [] oldPageClass emptyPageClass).map (fun p => decide (WellFormed p.html)) = .ok true := by
  decide +kernel

example : (classReportPage pageEnv [] emptyPageClass oldPageClass).map (fun p => decide (WellFormed p.html)) = .ok false := by
  decide +kernel

end Javatools
