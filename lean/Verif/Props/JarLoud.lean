import Verif.Props.ClassLoud
import Verif.Props.JarPage
/-
C174: the exit status of a comparison of JARs and the marks on the blocks of its HTML page.
-/
namespace Javatools
open Spec

/-! ### The marks of a block -/

theorem spaceWords_ne (s : Str) : spaceWords s ≠ [] := by
  cases s with
  | nil => simp [spaceWords]
  | cons c s =>
    rw [spaceWords]
    split
    · simp
    · split <;> simp

theorem spaceWords_append (a b : Str) : spaceWords (a ++ ' ' :: b) = spaceWords a ++ spaceWords b := by
  induction a with
  | nil => rfl
  | cons c a ih =>
    rw [List.cons_append, spaceWords, spaceWords, ih]
    cases h : spaceWords a with
    | nil => exact absurd h (spaceWords_ne a)
    | cons w ws =>
      by_cases hc : c = ' '
      · rw [if_pos hc, if_pos hc]; rfl
      · rw [if_neg hc, if_neg hc]; rfl

theorem spaceWords_word {w : Str} (h : ' ' ∉ w) : spaceWords w = [w] := by
  induction w with
  | nil => rfl
  | cons c w ih =>
    rw [List.mem_cons, not_or] at h
    rw [spaceWords, if_neg (Ne.symm h.1), ih h.2]

theorem classWords_div {s : Str} (h : '"' ∉ s) : classWords ("div class=\"".toList ++ (s ++ ['"'])) = spaceWords s := by
  generalize hp : "div class=\"".toList = p
  unfold classWords
  rw [hp, if_pos (List.isPrefixOf_iff_prefix.2 (List.prefix_append ..)), List.drop_left]
  congr 1
  rw [List.takeWhile_append_of_pos]
  · rw [List.takeWhile_cons_of_neg (by simp), List.append_nil]
  · intro c hc
    have : c ≠ '"' := fun e => h (e ▸ hc)
    simp [this]

/-- The mark that a verdict gives. -/
def Verdict.mark (v : Verdict) : List Str :=
  if v.changed then (if v.ignored then ["is_changed".toList, "is_ignored".toList] else ["is_changed".toList])
  else ["is_unchanged".toList]

theorem mark_words (v : Verdict) : ∃ s : Str, '"' ∉ s ∧ spaceWords s = v.mark ∧
    (if v.changed then (if v.ignored then " is_changed is_ignored" else " is_changed") else " is_unchanged").toList =
      ' ' :: s := by
  rcases v with ⟨_ | _, _ | _⟩
  · exact ⟨"is_unchanged".toList, by decide +kernel⟩
  · exact ⟨"is_unchanged".toList, by decide +kernel⟩
  · exact ⟨"is_changed".toList, by decide +kernel⟩
  · exact ⟨"is_changed is_ignored".toList, by decide +kernel⟩

/-- The words of a block. -/
theorem classWords_marked {type : String} (ht : '"' ∉ type.toList) (v : Verdict) :
    classWords ("div class=\"" ++ divClasses type v ++ "\"").toList =
      "Change".toList :: (spaceWords type.toList ++ v.mark) := by
  obtain ⟨s, h1, h2, h3⟩ := mark_words v
  have e1 : "\"".toList = ['"'] := by decide +kernel
  have e2 : "Change ".toList = "Change".toList ++ [' '] := by decide +kernel
  have e3 : '"' ∉ "Change".toList := by decide +kernel
  have e4 : ' ' ∉ "Change".toList := by decide +kernel
  have e5 : (divClasses type v).toList = "Change".toList ++ ' ' :: (type.toList ++ ' ' :: s) := by
    unfold divClasses
    rw [String.toList_append, String.toList_append, e2, h3]
    simp
  rw [String.toList_append, String.toList_append, e1, List.append_assoc, e5, classWords_div,
    spaceWords_append, spaceWords_append, spaceWords_word e4, h2]
  · rfl
  · simp only [List.mem_append, List.mem_cons, not_or]
    exact ⟨e3, by decide, ht, by decide, h1⟩

theorem loudTag_block {type : String} (ht : '"' ∉ type.toList)
    (hm : "is_changed".toList ∉ spaceWords type.toList ∧ "is_ignored".toList ∉ spaceWords type.toList)
    (v : Verdict) : loudTag ("div class=\"" ++ divClasses type v ++ "\"").toList = v.loud := by
  unfold loudTag
  rw [classWords_marked ht]
  have d : "is_changed".toList ≠ "Change".toList ∧ "is_ignored".toList ≠ "Change".toList ∧
    "is_changed".toList ≠ "is_ignored".toList ∧ "is_changed".toList ≠ "is_unchanged".toList ∧
    "is_ignored".toList ≠ "is_unchanged".toList := by decide +kernel
  unfold Verdict.mark Verdict.loud
  generalize "is_changed".toList = x at *
  generalize "is_ignored".toList = y at *
  generalize "is_unchanged".toList = z at *
  generalize "Change".toList = w at *
  generalize spaceWords type.toList = ws at *
  obtain ⟨d1, d2, d3, d4, d5⟩ := d
  have m1 := hm.1
  have m2 := hm.2
  rcases v with ⟨_ | _, _ | _⟩ <;>
    simp [m1, m2, d1, d2, d3, d4, d5, Ne.symm d1, Ne.symm d2, Ne.symm d3]

theorem loudTag_word {type : String} (h : ClassWord type) (v : Verdict) :
    loudTag ("div class=\"" ++ divClasses type v ++ "\"").toList = v.loud := by
  refine loudTag_block h.quote ?_ v
  rw [spaceWords_word h.blank]
  simp only [List.mem_singleton]
  exact ⟨h.marks.1.symm, h.marks.2.symm⟩

theorem loudTag_squashed {type : String} (h : ClassWord type) (v : Verdict) :
    loudTag ("div class=\"" ++ divClasses ("SquashedChange " ++ type) v ++ "\"").toList = v.loud := by
  have e1 : "SquashedChange ".toList = "SquashedChange".toList ++ [' '] := by decide +kernel
  have e2 : ' ' ∉ "SquashedChange".toList := by decide +kernel
  have e3 : '"' ∉ "SquashedChange ".toList := by decide +kernel
  have e4 : "is_changed".toList ≠ "SquashedChange".toList ∧ "is_ignored".toList ≠ "SquashedChange".toList := by
    decide +kernel
  refine loudTag_block ?_ ?_ v
  · rw [String.toList_append, List.mem_append]
    exact fun hh => hh.elim e3 h.quote
  · rw [String.toList_append, e1, List.append_assoc, List.singleton_append, spaceWords_append, spaceWords_word h.blank,
      spaceWords_word e2]
    simp only [List.mem_append, List.mem_singleton, not_or]
    exact ⟨⟨e4.1, h.marks.1.symm⟩, e4.2, h.marks.2.symm⟩

/-! ### The pieces of a page -/

mutual
/-- Whether a change or one below it is marked as changed, but not as ignored. -/
def Tree.loud : Tree → Bool
  | .node _ v _ _ kids => v.loud || treesLoud kids
  | .squashed _ v _ _ => v.loud
def treesLoud : List Tree → Bool
  | [] => false
  | t :: ts => t.loud || treesLoud ts
end

theorem treesLoud_any (ts : List Tree) : treesLoud ts = ts.any Tree.loud := by
  induction ts with
  | nil => rw [treesLoud]; rfl
  | cons t ts ih => rw [treesLoud, ih, List.any_cons]

theorem loudTag_not_div {c : Char} {p : Str} (hc : c ≠ 'd') (h : p.head? = some c) (s : Str) :
    loudTag (p ++ s) = false := by
  cases p with
  | nil => simp at h
  | cons x p =>
    simp only [List.head?_cons, Option.some.injEq] at h
    subst h
    rw [List.cons_append]
    unfold loudTag
    rw [classWords_not_div hc]
    rfl

theorem calm_description (t l e : Str) : Calm (descriptionFrags t l e) := by
  unfold descriptionFrags
  split
  · calm
  · split
    · calm
    · calm

theorem loud_block {type : String} (ht : ClassWord type) (v : Verdict) (fs : List Frag) :
    loudFrags (changeDiv type v fs) = (v.loud || loudFrags fs) := by
  unfold changeDiv
  rw [loud_append, show loudFrags [tg "/div"] = false by decide +kernel, Bool.or_false]
  unfold tg
  rw [loud_tag, loudTag_word ht]

theorem loud_squashed {type : String} (ht : ClassWord type) (v : Verdict) (e n : Str) :
    loudFrags (squashedFrags (divClasses ("SquashedChange " ++ type) v) e n) = v.loud := by
  unfold squashedFrags
  have : Calm [Frag.esc e, tg "span class=\"moreinfo\"", txt "[",
      .tag ("a href=\"".toList ++ detailsHref e n ++ ['"']), txt "details", tg "/a", txt "]",
      tg "/span", tg "/div"] := by
    have ha : "a href=\"".toList.head? = some 'a' := by decide +kernel
    calm
    refine Calm.tag ?_ (by calm)
    rw [List.append_assoc]
    exact loudTag_not_div (by decide) ha _
  rw [show (tg ("div class=\"" ++ divClasses ("SquashedChange " ++ type) v ++ "\"")) =
    Frag.tag ("div class=\"" ++ divClasses ("SquashedChange " ++ type) v ++ "\"").toList from rfl, loud_tag,
    loudTag_squashed ht, this.none, Bool.or_false]

mutual
theorem loud_tree (t : Tree) (h : ∀ c ∈ t.classes, ClassWord c) : loudFrags (treeFrags t) = t.loud := by
  match t with
  | .node type v label entry kids =>
    rw [Tree.classes] at h
    rw [treeFrags, Tree.loud, loud_block (h _ (List.mem_cons_self ..)), loud_append, (calm_description ..).none,
      Bool.false_or, ← loud_trees kids fun c hc => h c (List.mem_cons_of_mem _ hc)]
    congr 1
    split
    · rename_i hk
      rw [List.isEmpty_iff] at hk
      rw [hk, treesFrags]
    · rw [loud_collect]
  | .squashed oc v entry rn =>
    rw [Tree.classes] at h
    rw [treeFrags, Tree.loud, loud_squashed (h _ (List.mem_cons_self ..))]
theorem loud_trees (ts : List Tree) (h : ∀ c ∈ treesClasses ts, ClassWord c) :
    loudFrags (treesFrags ts) = treesLoud ts := by
  match ts with
  | [] => rw [treesFrags, treesLoud]; rfl
  | t :: ts =>
    rw [treesClasses] at h
    rw [treesFrags, treesLoud, loud_append, loud_tree t fun c hc => h c (List.mem_append_left _ hc),
      loud_trees ts fun c hc => h c (List.mem_append_right _ hc)]
end

/-- The groups have the marks of the changes. -/
theorem loud_groups {orig : Child → String} {order : List String} {trees : List Tree}
    (h : ∀ c ∈ treesClasses trees, ClassWord c)
    (hn : (trees.map fun t => (headingOf Tree.type (fun t => orig t.child) "SquashedChange" t, t.child.entry)).Nodup) :
    loudFrags ((reportGroups Tree.type (fun t => orig t.child) (fun t => t.child.entry) "SquashedChange"
      order trees).flatMap groupFrags) = trees.any Tree.loud := by
  have hp := C153_once Tree.type (fun t => orig t.child) (fun t => t.child.entry) "SquashedChange" order trees hn
  rw [loud_flatMap, Bool.eq_iff_iff, List.any_eq_true, List.any_eq_true]
  have hg : ∀ g ∈ reportGroups Tree.type (fun t => orig t.child) (fun t => t.child.entry) "SquashedChange"
      order trees, loudFrags (groupFrags g) = g.2.any Tree.loud := by
    intro g hg
    unfold groupFrags
    rw [loud_append, loud_append, (show Calm [tg "/div"] by calm).none,
      (show Calm [tg "div class=\"change-category\"", tg "h2", txt (headingLabel g.1), tg "/h2"] by calm).none,
      Bool.or_false, Bool.false_or, loud_trees, treesLoud_any]
    intro c hc
    obtain ⟨t, ht, hc⟩ := mem_treesClasses.1 hc
    exact h c (mem_treesClasses.2 ⟨t, hp.mem_iff.1 (List.mem_flatMap.2 ⟨g, hg, ht⟩), hc⟩)
  constructor
  · rintro ⟨g, hm, hl⟩
    rw [hg g hm, List.any_eq_true] at hl
    obtain ⟨t, ht, hl⟩ := hl
    exact ⟨t, hp.mem_iff.1 (List.mem_flatMap.2 ⟨g, hm, ht⟩), hl⟩
  · rintro ⟨t, ht, hl⟩
    obtain ⟨g, hm, ht⟩ := List.mem_flatMap.1 (hp.mem_iff.2 ht)
    exact ⟨g, hm, by rw [hg g hm, List.any_eq_true]; exact ⟨t, ht, hl⟩⟩

theorem calm_frame (f : PageFrame) (title : String) (ht : f.title = txt title) :
    Calm (prologue ++ headFrags f ++ [tg "body"] ++ headingFrags f ++
      [tg "div id=\"report-intro\"", tg "/div"]) := by
  have e1 : ∀ s, loudTag (styleLink s) = false := by
    intro s
    unfold styleLink
    have h : "link rel=\"stylesheet\" type=\"text/css\" href=\"".toList.head? = some 'l' := by decide +kernel
    rw [List.append_assoc]
    exact loudTag_not_div (by decide) h _
  have e2 : ∀ s, loudTag (scriptTag s) = false := by
    intro s
    unfold scriptTag
    have h : "script type=\"text/javascript\" src=\"".toList.head? = some 's' := by decide +kernel
    rw [List.append_assoc]
    exact loudTag_not_div (by decide) h _
  have e3 : ∀ c, loudTag (crumbTag c) = false := by
    intro c
    unfold crumbTag
    have h : "a href=\"".toList.head? = some 'a' := by decide +kernel
    rw [List.append_assoc]
    exact loudTag_not_div (by decide) h _
  have h0 : Calm prologue := ⟨by decide +kernel⟩
  have h1 : Calm (headFrags f) := by
    rw [headFrags, ht]
    refine ((((show Calm _ by calm).append ?_).append ?_).append (.flatMap fun s _ => ?_)).append (by calm)
    · constructor
      generalize f.stylesheets = l
      induction l with
      | nil => rfl
      | cons s l ih => rw [List.map_cons, loud_tag, e1, ih]; rfl
    · cases f.noJquery
      · exact ⟨by decide +kernel⟩
      · exact ⟨by decide +kernel⟩
    · exact .tag (e2 _) (by calm)
  have h2 : Calm (headingFrags f) := by
    rw [headingFrags, ht]
    refine ((show Calm _ by calm).append (.flatMap fun c _ => ?_)).append (by calm)
    exact .tg (by decide +kernel) (.tag (e3 _) (by calm))
  exact (((h0.append h1).append (by calm)).append h2).append (by calm)

theorem loud_page (f : PageFrame) (title : String) (ht : f.title = txt title) (fs : List Frag) :
    loudFrags (pageFrags f fs) = loudFrags fs := by
  unfold pageFrags
  rw [loud_append, loud_append, (calm_frame f title ht).none, Bool.false_or,
    (show Calm [tg "div id=\"report-outro\"", tg "/div", tg "/body", tg "/html"] by calm).none, Bool.or_false]

/-- The marks on the page of a JAR. -/
theorem loud_jarPage (f : PageFrame) (v : Verdict) {children : List Tree}
    (h : ∀ c ∈ treesClasses children, ClassWord c)
    (hn : (children.map fun t => (headingOf Tree.type (fun t => jarOrig t.child) "SquashedChange" t, t.child.entry)).Nodup) :
    loudFrags (jarPage f v children) = (v.loud || children.any Tree.loud) := by
  unfold jarPage
  rw [loud_page _ "JarReport" rfl, loud_append, loud_append, loud_append, loud_tree, Tree.loud, treesLoud, jarContentsFrags, loud_append,
    loud_append, loud_groups h hn, (show Calm [tg "div id=\"report-details\""] by calm).none, (show Calm [tg "/div"] by calm).none,
    (show Calm [tg "!-- begin jardiff_JarContentsReport.details --", tg "div class=\"details\""] by calm).none,
    (show Calm [tg "/div", tg "!-- end jardiff_JarContentsReport.details --"] by calm).none]
  · simp only [Bool.or_false, Bool.false_or]
  · rw [Tree.classes, treesClasses]
    intro c hc
    rw [List.mem_singleton] at hc
    subst hc
    exact classWord (by decide +kernel)

/-! ### The changes -/

/-- Whether the class of a change says itself that the options ignore it. -/
def Hdr.mutes {O : Type} (h : Hdr O) (o : O) : Bool :=
  match h.ign with
  | .inherit => false
  | .only rule => rule o
  | .orElse rule => rule o

mutual
/-- No change with others below it is ignored by itself. -/
def Change.Open {O : Type} (o : O) : Change O → Prop
  | .leaf .. => True
  | .super h short _ _ kids => short = none ∧ (h.mutes o = false ∨ kids = []) ∧ ChangesOpen o kids
  | .squashed .. => True
def ChangesOpen {O : Type} (o : O) : List (Change O) → Prop
  | [] => True
  | c :: cs => c.Open o ∧ ChangesOpen o cs
end

/-- A composite that is not ignored by itself is one if a child is one. -/
theorem loud_of_kid {O : Type} {o : O} {h : Hdr O} {short : Option Bool} {b : Bool} {d : Option Str}
    {kids : List (Change O)} (hm : h.mutes o = false) (hb : ∀ x ∈ kids, x.isChange = true → b = true)
    {x : Change O} (hx : x ∈ kids) (hl : x.loud o = true) :
    (Change.super h short b d kids).loud o = true := by
  unfold Change.loud at hl ⊢
  simp only [Bool.and_eq_true, Bool.not_eq_true'] at hl ⊢
  have h1 : (Change.super h short b d kids).isChange = true := by
    rw [hb x hx hl.1]
    simp only [Change.isChange]
    split <;> rfl
  have h2 : Change.allIgnored o kids = false := by
    cases ha : Change.allIgnored o kids with
    | false => rfl
    | true => rw [Change.allIgnored_iff] at ha; rw [ha x hx hl.1] at hl; simp at hl
  refine ⟨h1, ?_⟩
  unfold Hdr.mutes at hm
  simp only [Change.isIgnored, h1, h2]
  cases hi : h.ign with
  | inherit => simp
  | only r => rw [hi] at hm; simpa using hm
  | orElse r => rw [hi] at hm; simp only at hm; simp [hm]

mutual
theorem open_faithful (o : DiffOpts) (c x : Change DiffOpts) (hc : c.Open o) (h : c.check = .ok x) :
    (treeOf o x).loud = x.loud o := by
  match c with
  | .leaf hd cmp b d =>
    have : ∃ b' d', x = .leaf hd cmp b' d' := by
      cases cmp with
      | none => simp only [Change.check, Except.ok.injEq] at h; exact ⟨_, _, h.symm⟩
      | some r =>
        cases r with
        | error e => simp [Change.check] at h
        | ok p =>
          obtain ⟨b', d'⟩ := p
          simp only [Change.check, Except.ok.injEq] at h
          exact ⟨b', d', h.symm⟩
    obtain ⟨b', d', rfl⟩ := this
    rw [treeOf, Tree.loud, treesLoud, Bool.or_false]
    rfl
  | .squashed hd oc b d i =>
    simp only [Change.check, Except.ok.injEq] at h
    subst h
    rw [treeOf, Tree.loud]
    rfl
  | .super hd short b d kids =>
    obtain ⟨rfl, hm, hk⟩ := hc
    rw [Change.check] at h
    cases ha : Change.checkAll kids false with
    | error e => rw [ha] at h; simp at h
    | ok p =>
      obtain ⟨ks, b'⟩ := p
      rw [ha] at h
      simp only [Except.ok.injEq] at h
      subst h
      obtain ⟨h1, h2, h3, h4⟩ := Change.checkAll_ok _ _ _ _ ha
      have ih := opens_faithful o kids ks _ _ hk ha
      rw [treeOf, Tree.loud, ih]
      change ((Change.super hd none b' none ks).loud o || ks.any (Change.loud o)) = _
      cases hany : ks.any (Change.loud o) with
      | false => rw [Bool.or_false]
      | true =>
        rw [Bool.or_true]
        obtain ⟨y, hy, hl⟩ := List.any_eq_true.1 hany
        symm
        refine loud_of_kid ?_ (fun z hz hz' => h3.2 (.inr ⟨z, hz, hz'⟩)) hy hl
        rcases hm with hm | rfl
        · exact hm
        · obtain ⟨z, hz, _⟩ := h1 y hy
          simp at hz
theorem opens_faithful (o : DiffOpts) (cs xs : List (Change DiffOpts)) (b b' : Bool) (hc : ChangesOpen o cs)
    (h : Change.checkAll cs b = .ok (xs, b')) : treesLoud (treesOf o xs) = xs.any (Change.loud o) := by
  match cs with
  | [] =>
    simp only [Change.checkAll, Except.ok.injEq, Prod.mk.injEq] at h
    rw [← h.1, treesOf, treesLoud]
    rfl
  | c :: cs =>
    rw [Change.checkAll] at h
    cases hx : c.check with
    | error e => rw [hx] at h; simp at h
    | ok x =>
      rw [hx] at h
      simp only at h
      cases hr : Change.checkAll cs (b || x.isChange) with
      | error e => rw [hr] at h; simp at h
      | ok p =>
        obtain ⟨ys, b1⟩ := p
        rw [hr] at h
        simp only [Except.ok.injEq, Prod.mk.injEq] at h
        rw [← h.1, treesOf, treesLoud, List.any_cons, open_faithful o c x hc.1 hx,
          opens_faithful o cs ys _ _ hc.2 hr]
end

theorem verdict_le (o : DiffOpts) (c : Change DiffOpts) (h : c.loud o = true) : (treeOf o c).loud = true := by
  cases c with
  | leaf hd cmp b d => rw [treeOf, Tree.loud, Bool.or_eq_true]; exact .inl h
  | super hd short b d kids => rw [treeOf, Tree.loud, Bool.or_eq_true]; exact .inl h
  | squashed hd oc b d i => rw [treeOf, Tree.loud]; exact h

theorem treeOf_squash (o : DiffOpts) (c : Change DiffOpts) :
    (treeOf o (c.squash false (some o))).loud = (c.squash false (some o)).loud o := by
  rw [Change.squash]
  cases c.hdr.kind <;> (simp only [Change.mkSquashed]; rw [treeOf, Tree.loud]; rfl)


/-! ### The report -/

/-- A composite that leaves the question to its children. -/
theorem loud_composite {O : Type} {h : Hdr O} {short : Option Bool} {b : Bool} {d : Option Str}
    {cs : List (Change O)} (hi : h.ign = .inherit) (hk : h.kind = .plain)
    (hb : b = true ↔ ∃ x ∈ cs, x.isChange = true) (o : O) :
    (Change.super h short b d cs).loud o = cs.any (Change.loud o) := by
  rw [Bool.eq_iff_iff, List.any_eq_true]
  constructor
  · intro hl
    unfold Change.loud at hl
    have hc : (Change.super h short b d cs).isChange = b := by rw [Change.isChange, hk]
    have hg := Change.C35_ignored_iff o h short b d cs (by rw [hi]; trivial)
    rw [hc] at hl hg
    simp only [Bool.and_eq_true, Bool.not_eq_true'] at hl
    obtain ⟨x, hx, hx'⟩ := hb.1 hl.1
    refine Classical.byContradiction fun hno => ?_
    have := hg.2 ⟨hl.1, fun e => by rw [e] at hx; simp at hx, fun y hy hy' => ?_⟩
    · rw [hl.2] at this; simp at this
    · cases hyi : y.isIgnored o with
      | true => rfl
      | false => exact absurd ⟨y, hy, by rw [Change.loud, hy', hyi]; rfl⟩ hno
  · rintro ⟨x, hx, hl⟩
    exact loud_of_kid (by rw [Hdr.mutes, hi]) (fun z hz hz' => hb.2 ⟨z, hz, hz'⟩) hx hl

theorem reportAll_ok {o : DiffOpts} {cs : List (Change DiffOpts)} {b : Bool} {cs' : List (Change DiffOpts)}
    {b' : Bool} (h : reportAll o cs b = .ok (cs', b')) :
    (b' = true ↔ b = true ∨ ∃ x ∈ cs', x.isChange = true) ∧
    ∀ x ∈ cs', ∃ c ∈ cs, ∃ y, c.check = .ok y ∧ x = if isReported c then y.squash false (some o) else y := by
  induction cs generalizing b cs' with
  | nil =>
    simp only [reportAll, Except.ok.injEq, Prod.mk.injEq] at h
    rw [← h.1, ← h.2]
    simp
  | cons c cs ih =>
    simp only [reportAll] at h
    cases hx : c.check with
    | error e => rw [hx] at h; simp at h
    | ok x =>
      rw [hx] at h
      simp only at h
      cases hr : reportAll o cs (b || x.isChange) with
      | error e => rw [hr] at h; simp at h
      | ok p =>
        obtain ⟨ys, b1⟩ := p
        rw [hr] at h
        simp only [Except.ok.injEq, Prod.mk.injEq] at h
        obtain ⟨i1, i2⟩ := ih (h.2 ▸ hr)
        have hq : (if isReported c then x.squash false (some o) else x).isChange = x.isChange := by
          split
          · exact Change.squash_isChange ..
          · rfl
        rw [← h.1]
        refine ⟨?_, ?_⟩
        · rw [i1]
          simp only [List.mem_cons, exists_eq_or_imp, hq, Bool.or_eq_true, or_assoc]
        · intro y hy
          rcases List.mem_cons.1 hy with rfl | hy
          · exact ⟨c, List.mem_cons_self .., x, hx, rfl⟩
          · obtain ⟨c', h1, h2⟩ := i2 y hy
            exact ⟨c', List.mem_cons_of_mem _ h1, h2⟩

theorem reportAll_all {o : DiffOpts} {cs : List (Change DiffOpts)} {b : Bool} {cs' : List (Change DiffOpts)}
    {b' : Bool} (h : reportAll o cs b = .ok (cs', b')) :
    ∀ c ∈ cs, ∃ y, c.check = .ok y ∧ (if isReported c then y.squash false (some o) else y) ∈ cs' := by
  induction cs generalizing b cs' with
  | nil => simp
  | cons c cs ih =>
    simp only [reportAll] at h
    cases hx : c.check with
    | error e => rw [hx] at h; simp at h
    | ok x =>
      rw [hx] at h
      simp only at h
      cases hr : reportAll o cs (b || x.isChange) with
      | error e => rw [hr] at h; simp at h
      | ok p =>
        obtain ⟨ys, b1⟩ := p
        rw [hr] at h
        simp only [Except.ok.injEq, Prod.mk.injEq] at h
        rw [← h.1]
        intro y hy
        rcases List.mem_cons.1 hy with rfl | hy
        · exact ⟨x, hx, List.mem_cons_self ..⟩
        · obtain ⟨z, h1, h2⟩ := ih (h.2 ▸ hr) y hy
          exact ⟨z, h1, List.mem_cons_of_mem _ h2⟩

/-- The options say of a changed entry of this kind, or of all there is in it, that it is ignored. -/
def Excused (o : DiffOpts) (n : Str) : EntryKind → Prop
  | .manifest => fnmatches n o.jarEntries = true ∨ o.attr "ignore_manifest" = true
  | .sigfile => o.attr "ignore_jar_signature" = true
  | .sigblock => o.attr "ignore_jar_signature" = true
  | .cls => False
  | .other => fnmatches n o.jarEntries = true

theorem manifest_open (o : DiffOpts) (order : List Str → List Str) (text : Section → Str) (a b : Manifest) :
    ChangesOpen o (manifestChildren order text a b) := by
  have : ∀ cs : List (Change DiffOpts), (∀ c ∈ cs, c.Open o) → ChangesOpen o cs := by
    intro cs h
    induction cs with
    | nil => trivial
    | cons c cs ih => exact ⟨h c (List.mem_cons_self ..), ih fun x hx => h x (List.mem_cons_of_mem _ hx)⟩
  refine this _ fun c hc => ?_
  unfold manifestChildren at hc
  simp only [List.mem_append, List.mem_cons, List.mem_map] at hc
  rcases hc with ((rfl | ⟨_, _, rfl⟩) | ⟨_, _, rfl⟩) | ⟨_, _, rfl⟩ <;> trivial

theorem orRaise_open {α : Type} {o : DiffOpts} (x : Res α) (g : α → Change DiffOpts) (h : ∀ a, (g a).Open o) :
    ChangesOpen o (orRaise (x.map fun p => [g p])) := by
  cases x with
  | error e => exact ⟨trivial, trivial⟩
  | ok a => exact ⟨h a, trivial⟩

/-- What the page shows of an entry is the verdict on it. -/
theorem event_faithful (E : JarEnv) (hup : IsUpper E.up) (l r : Archive) (o : DiffOpts) (ev : Event)
    (f : Str) (k : EntryKind) (hk : KindOf E.up f k) (hu : ev = .diff → ¬ Excused o f k) {y : Change DiffOpts}
    (hy : (jarEntryChange E l r (ev, f)).check = .ok y) :
    (treeOf o (if isReported (jarEntryChange E l r (ev, f)) then y.squash false (some o) else y)).loud =
      (if isReported (jarEntryChange E l r (ev, f)) then y.squash false (some o) else y).loud o := by
  rw [jarEntryChange_eq E hup l r ev f k hk] at hy ⊢
  by_cases hr : isReported (entryObject E l r f ev k) = true
  · rw [hr]; exact treeOf_squash o y
  · rw [if_neg hr]
    refine open_faithful o _ y ?_ hy
    have hone : ∀ (name label : String) (kd : Kind) (ign : IgnoreRule DiffOpts),
        (jarOneSided name label kd ign f).Open o := fun _ _ _ _ => ⟨rfl, .inr rfl, trivial⟩
    have hsame : ∀ (name label : String) (ign : IgnoreRule DiffOpts) (kids : List (Change DiffOpts)),
        (jarContent name label ign f false kids).Open o := fun _ _ _ _ => ⟨rfl, .inr rfl, trivial⟩
    cases ev with
    | same => cases k <;> exact hsame ..
    | left => cases k <;> exact hone ..
    | right => cases k <;> exact hone ..
    | diff =>
      have hu := hu rfl
      cases k with
      | cls => exact absurd rfl hr
      | manifest =>
        simp only [Excused, not_or, Bool.not_eq_true] at hu
        refine ⟨rfl, .inl hu.1, ?_⟩
        exact orRaise_open _ _ fun p => ⟨rfl, .inl hu.2, manifest_open ..⟩
      | sigfile =>
        simp only [Excused, Bool.not_eq_true] at hu
        refine ⟨rfl, .inl hu, ?_⟩
        exact orRaise_open _ _ fun p => ⟨rfl, .inl hu, manifest_open ..⟩
      | sigblock =>
        simp only [Excused, Bool.not_eq_true] at hu
        refine ⟨rfl, .inl hu, ?_⟩
        exact orRaise_open _ _ fun p => trivial
      | other =>
        simp only [Excused, Bool.not_eq_true] at hu
        refine ⟨rfl, .inl hu, ?_⟩
        exact orRaise_open _ _ fun p => trivial

/-- C174 in full: the exit status is what the marks on the page say. -/
def C174_full : Prop := ∀ (E : JarEnv) (l r : Archive) (o : DiffOpts) (f : PageFrame) (page : List Frag),
  IsUpper E.up → IsSetOrder E.order → ReadableJars l r →
  (∀ n b c, HasContent l n b → HasContent r n c → b ≠ c → KindOf E.up n .cls → '"' ∉ n) → f.Plain →
  jarReportPage E l r o f = .ok page →
  jarReportStatus E l r o = .ok (if loudOn (renderFrags page) then 1 else 0)

theorem treesOf_map (o : DiffOpts) (cs : List (Change DiffOpts)) : treesOf o cs = cs.map (treeOf o) := by
  induction cs with
  | nil => rfl
  | cons c cs ih => rw [treesOf, ih, List.map_cons]

/-- The status and the marks. -/
theorem jar_marks (E : JarEnv) (hup : IsUpper E.up) (ho : IsSetOrder E.order) (l r : Archive)
    (hlr : ReadableJars l r)
    (hq : ∀ n b c, HasContent l n b → HasContent r n c → b ≠ c → KindOf E.up n .cls → '"' ∉ n) (o : DiffOpts)
    (f : PageFrame) (hf : f.Plain) (page : List Frag) (h : jarReportPage E l r o f = .ok page) :
    ∃ (t : Bool) (cs' : List (Change DiffOpts)),
      loudOn (renderFrags page) = (t || (treesOf o cs').any Tree.loud) ∧
      jarReportStatus E l r o = .ok (if t || cs'.any (Change.loud o) then 1 else 0) ∧
      (∀ x ∈ cs', ∃ ev n k y, KindOf E.up n k ∧
        (ev = .diff → ∃ b c, ¬ IsDirName n ∧ HasContent l n b ∧ HasContent r n c ∧ b ≠ c) ∧
        (jarEntryChange E l r (ev, n)).check = .ok y ∧
        x = if isReported (jarEntryChange E l r (ev, n)) then y.squash false (some o) else y) ∧
      ∀ n b c, ¬ IsDirName n → HasContent l n b → HasContent r n c → b ≠ c →
        ∃ y, (jarEntryChange E l r (.diff, n)).check = .ok y ∧
          (if isReported (jarEntryChange E l r (.diff, n)) then y.squash false (some o) else y) ∈ cs' := by
  obtain ⟨evs, cs, h1, h2, h3, h4⟩ := C67_partition E hup ho l r hlr.leftOpen hlr.rightOpen
    hlr.leftConsistent hlr.rightConsistent hlr.leftZip hlr.rightZip hlr.named
  have hfrom : ∀ c ∈ cs, ∃ p ∈ evs, c = jarEntryChange E l r p := by
    intro c hc
    obtain ⟨p, hp, rfl⟩ := List.mem_map.1 (h3.mem_iff.1 hc)
    exact ⟨p, hp, rfl⟩
  have hdiff : ∀ {n}, (Event.diff, n) ∈ evs → ∃ b c, ¬ IsDirName n ∧ HasContent l n b ∧ HasContent r n c ∧ b ≠ c := by
    intro n hp
    obtain ⟨hd, b, c, hb, hc', hne⟩ := (h2.diff n).1 hp
    exact ⟨b, c, hd, hb, hc', hne⟩
  unfold jarReportPage at h
  unfold jarReportStatus
  unfold jarReportCheck at h ⊢
  rw [h1] at h ⊢
  cases ht : (jarTypeChange l r).check with
  | error e => rw [ht] at h; simp at h
  | ok t =>
  rw [ht] at h
  simp only at h ⊢
  cases hr : reportAll o cs false with
  | error e => rw [hr] at h; simp at h
  | ok p =>
  obtain ⟨cs', b⟩ := p
  rw [hr] at h
  simp only [Change.collect, Except.ok.injEq] at h ⊢
  obtain ⟨hb, hall⟩ := reportAll_ok hr
  simp only [Bool.false_eq_true, false_or] at hb
  obtain ⟨h6, h7⟩ := report_trees E hup l r o cs
    (fun c hc => by obtain ⟨p, _, hp⟩ := hfrom c hc; exact ⟨p, hp⟩) false cs' b hr
  refine ⟨t.loud o, cs', ?_, ?_, ?_, ?_⟩
  · -- the page
    have hentry : ∀ t ∈ treesOf o cs', ∃ p ∈ evs, ∃ k, KindOf E.up p.2 k ∧
        ShowsEntry jarOrig (p.1 = .diff ∧ k = .cls) t (entryClass p.1 k) p.2 := by
      intro t ht
      obtain ⟨ev, n, k, hm, hk, hs⟩ := h7 t ht
      obtain ⟨⟨ev', n'⟩, hp, he⟩ := hfrom _ hm
      obtain ⟨k', hk', _⟩ := kindOf_unique E.up n'
      have e1 := C67_entry E hup l r ev n k hk
      have e2 := C67_entry E hup l r ev' n' k' hk'
      rw [he] at e1
      have e3 : n' = n := Option.some.inj (e2.2.1.symm.trans e1.2.1)
      subst e3
      obtain rfl : k' = k := by
        obtain ⟨_, _, hu⟩ := kindOf_unique E.up n'
        exact (hu _ hk').trans (hu _ hk).symm
      obtain rfl : ev' = ev := event_eq (e2.2.2.1.symm.trans e1.2.2.1) (e2.2.2.2.symm.trans e1.2.2.2)
      exact ⟨(ev', n'), hp, k', hk', hs⟩
    have hclass : ∀ c ∈ treesClasses (treesOf o cs'), ClassWord c := by
      intro c hc
      obtain ⟨t, ht, hc⟩ := mem_treesClasses.1 hc
      obtain ⟨p, _, k, _, hs⟩ := hentry t ht
      exact hs.classes c hc
    have hlink : ∀ s ∈ treesLinks (treesOf o cs'), '"' ∉ s := by
      intro s hs
      obtain ⟨t, ht, hs⟩ := mem_treesLinks.1 hs
      obtain ⟨⟨ev, n⟩, hp, k, hk, hst⟩ := hentry t ht
      rcases hst.links s hs with ⟨rfl, rfl, rfl⟩ | hno
      · obtain ⟨b, c, _, hb, hc', hne⟩ := hdiff hp
        exact hq _ b c hb hc' hne hk
      · exact hno
    have hclean := (runs_jar (b := false) hf (by simp) ⟨t.isChange, t.isIgnored o⟩ (fun c hc => (hclass c hc).quote) hlink).clean
    have hnodup : ((treesOf o cs').map fun t => (headingOf Tree.type (fun t => jarOrig t.child) "SquashedChange" t,
        t.child.entry)).Nodup := by
      rw [h6]
      have h8 := (h3.map fun c => (c.hdr.typeName, c.hdr.entry.getD [])).nodup_iff.2 ?_
      · exact h8
      · have h9 := h2.once
        rw [List.Nodup, List.pairwise_map] at h9
        rw [List.map_map, List.Nodup, List.pairwise_map]
        refine h9.imp fun {p q} hne he => hne ?_
        obtain ⟨k, hk, _⟩ := kindOf_unique E.up p.2
        obtain ⟨k', hk', _⟩ := kindOf_unique E.up q.2
        have e1 := (C67_entry E hup l r p.1 p.2 k hk).2.1
        have e2 := (C67_entry E hup l r q.1 q.2 k' hk').2.1
        have he := congrArg Prod.snd he
        simp only [Function.comp] at he
        rw [e1, e2] at he
        exact he
    rw [← h]
    unfold loudOn
    rw [tagsOf_render hclean]
    exact loud_jarPage f _ hclass hnodup
  · -- the status
    change Except.ok _ = _
    rw [exitStatus_loud, loud_composite rfl rfl, List.any_cons, List.any_cons, List.any_nil, Bool.or_false,
      loud_composite rfl rfl hb]
    simp only [Bool.false_or, Bool.or_eq_true, List.mem_cons, List.not_mem_nil, or_false, exists_eq_or_imp, exists_eq_left]
    rfl
  · intro x hx
    obtain ⟨c, hc, y, hy, rfl⟩ := hall x hx
    obtain ⟨⟨ev, n⟩, hp, rfl⟩ := hfrom c hc
    obtain ⟨k, hk, _⟩ := kindOf_unique E.up n
    exact ⟨ev, n, k, y, hk, fun e => hdiff (e ▸ hp), hy, rfl⟩
  · intro n b c hd hb hc hne
    exact reportAll_all hr _ (h3.mem_iff.2 (List.mem_map.2 ⟨_, (h2.diff n).2 ⟨hd, b, c, hb, hc, hne⟩, rfl⟩))

/-- C174, proved part: when the status is 1 the page has a block marked as changed and not as ignored. It is so the other way
round too, when the options do not say of a changed entry, other than a class, that it is ignored. -/
theorem C174_partial (E : JarEnv) (hup : IsUpper E.up) (ho : IsSetOrder E.order) (l r : Archive)
    (hlr : ReadableJars l r)
    (hq : ∀ n b c, HasContent l n b → HasContent r n c → b ≠ c → KindOf E.up n .cls → '"' ∉ n) (o : DiffOpts)
    (f : PageFrame) (hf : f.Plain) (page : List Frag) (h : jarReportPage E l r o f = .ok page) :
    (∃ s, s ≤ 1 ∧ jarReportStatus E l r o = .ok s) ∧
    (jarReportStatus E l r o = .ok 1 → loudOn (renderFrags page) = true) ∧
    ((∀ n b c k, HasContent l n b → HasContent r n c → b ≠ c → KindOf E.up n k → ¬ Excused o n k) →
      jarReportStatus E l r o = .ok (if loudOn (renderFrags page) then 1 else 0)) := by
  obtain ⟨t, cs', h1, h2, h3, _⟩ := jar_marks E hup ho l r hlr hq o f hf page h
  rw [h1, h2]
  refine ⟨⟨_, ?_, rfl⟩, ?_, ?_⟩
  · split <;> decide
  · intro hs
    cases t with
    | true => rfl
    | false =>
      rw [Bool.false_or]
      by_cases ha : cs'.any (Change.loud o) = true
      · obtain ⟨x, hx, hl⟩ := List.any_eq_true.1 ha
        rw [List.any_eq_true, treesOf_map]
        exact ⟨_, List.mem_map.2 ⟨x, hx, rfl⟩, verdict_le o x hl⟩
      · rw [Bool.false_or, if_neg ha] at hs
        simp at hs
  · intro hu
    have : (treesOf o cs').any Tree.loud = cs'.any (Change.loud o) := by
      rw [treesOf_map, List.any_map, Bool.eq_iff_iff, List.any_eq_true, List.any_eq_true]
      have : ∀ x ∈ cs', (treeOf o x).loud = x.loud o := by
        intro x hx
        obtain ⟨ev, n, k, y, hk, hd, hy, rfl⟩ := h3 x hx
        refine event_faithful E hup l r o ev n k hk (fun e => ?_) hy
        obtain ⟨b, c, _, hb, hc, hne⟩ := hd e
        exact hu n b c k hb hc hne hk
      constructor
      · rintro ⟨x, hx, hl⟩; exact ⟨x, hx, by rw [← this x hx]; exact hl⟩
      · rintro ⟨x, hx, hl⟩; exact ⟨x, hx, by rw [Function.comp, this x hx]; exact hl⟩
    rw [this]

/-- An archive with just a manifest. -/
def manifestJar (v : UInt8) : Archive := zipOf false [("META-INF/MANIFEST.MF".toList, [65, 58, 32, v, 10, 10])]

theorem muted_manifest : (match jarReportPage demoEnv (manifestJar 66) (manifestJar 67)
      (jarOpts [("ignore_manifest".toList, true)] []) (bareFrame true),
      jarReportStatus demoEnv (manifestJar 66) (manifestJar 67) (jarOpts [("ignore_manifest".toList, true)] []) with
    | .ok page, .ok s => some (loudOn (renderFrags page), s)
    | _, _ => none) = some (true, 0) := by decide +kernel

theorem manifestJars_readable (a b : UInt8) : ReadableJars (manifestJar a) (manifestJar b) := by
  refine ⟨rfl, rfl, zipOf_consistent _ _, zipOf_consistent _ _, rfl, rfl, fun h => ?_⟩
  have : [] ∉ ["META-INF/MANIFEST.MF".toList] := by decide +kernel
  exact this h.1

theorem C174_full_fails : ¬ C174_full := by
  intro h
  have hs := muted_manifest
  generalize ho : jarOpts [("ignore_manifest".toList, true)] [] = o at hs
  cases hp : jarReportPage demoEnv (manifestJar 66) (manifestJar 67) o (bareFrame true) with
  | error e => rw [hp] at hs; simp at hs
  | ok page =>
    have := h demoEnv _ _ _ _ page upLongS_isUpper dedup_isSetOrder (manifestJars_readable 66 67) ?_
      (bare_plain true) hp
    · rw [hp, this] at hs
      dsimp only at hs
      rw [Option.some.injEq, Prod.mk.injEq] at hs
      rw [hs.1] at hs
      exact absurd hs.2 (by decide)
    · rintro n b c ⟨pre, e, post, he, hn, _⟩ _ _ _
      have h0 : (manifestJar 66).entries.map ZEntry.name = ["META-INF/MANIFEST.MF".toList] := rfl
      have h1 : n ∈ ["META-INF/MANIFEST.MF".toList] :=
        h0 ▸ List.mem_map.2 ⟨e, by rw [he]; exact List.mem_append_right _ (List.mem_cons_self ..), hn⟩
      rw [List.mem_singleton] at h1
      rw [h1]
      decide +kernel

-- without the option the page and the status agree
example : (match jarReportPage demoEnv (manifestJar 66) (manifestJar 67) (jarOpts [] []) (bareFrame true),
      jarReportStatus demoEnv (manifestJar 66) (manifestJar 67) (jarOpts [] []) with
    | .ok page, .ok s => some (loudOn (renderFrags page), s)
    | _, _ => none) = some (true, 1) := by decide +kernel

-- so they do when the key is ignored
example : (match jarReportPage demoEnv (manifestJar 66) (manifestJar 67)
      { flags := [], manifestKeys := ["A".toList], jarEntries := [], filenames := [] } (bareFrame true),
      jarReportStatus demoEnv (manifestJar 66) (manifestJar 67)
        { flags := [], manifestKeys := ["A".toList], jarEntries := [], filenames := [] } with
    | .ok page, .ok s => some (loudOn (renderFrags page), s)
    | _, _ => none) = some (false, 0) := by decide +kernel

-- a class that is ignored by its name
example : (match jarReportPage demoEnv (slipJar "X.class".toList 1) (slipJar "X.class".toList 0)
      (jarOpts [] ["X*".toList]) (bareFrame true),
      jarReportStatus demoEnv (slipJar "X.class".toList 1) (slipJar "X.class".toList 0) (jarOpts [] ["X*".toList]) with
    | .ok page, .ok s => some (loudOn (renderFrags page), s)
    | _, _ => none) = some (false, 0) := by decide +kernel

/-! ### Which comparisons it is not so for -/

/-- What a changed entry of this kind shows below it is a change that is not ignored: for a manifest or a
signature file, a section that changed in an attribute that is not to be ignored; for a class there is nothing
below it. -/
def Telling (o : DiffOpts) (b c : Bytes) : EntryKind → Prop
  | .manifest | .sigfile => ∃ m n, emptyManifest.parse b = .ok m ∧ emptyManifest.parse c = .ok n ∧
      ∃ t, Expected m n t ∧ LineChanged m n t ∧ ¬ LineIgnored m n o t
  | .sigblock | .other => True
  | .cls => False

/-- An entry has changed and is ignored, though not what is shown below it. -/
def HiddenChange (up : Char → Str) (l r : Archive) (o : DiffOpts) : Prop :=
  ∃ n b c k, ¬ IsDirName n ∧ HasContent l n b ∧ HasContent r n c ∧ b ≠ c ∧ KindOf up n k ∧ Excused o n k ∧
    Telling o b c k

theorem loud_childless (o : DiffOpts) (c : Change DiffOpts) (h : c.collect = []) :
    (treeOf o c).loud = c.loud o := by
  cases c with
  | leaf hd cmp b d => rw [treeOf, Tree.loud, treesLoud, Bool.or_false]; rfl
  | super hd short b d kids =>
    simp only [Change.collect] at h
    subst h
    rw [treeOf, Tree.loud, treesOf, treesLoud, Bool.or_false]
    rfl
  | squashed hd oc b d i => rw [treeOf, Tree.loud]; rfl

/-- The marks on what is shown of a comparison of manifests. -/
theorem lines_loud {order : List Str → List Str} (ho : IsSetOrder order) (text : Section → Str) {m n : Manifest}
    (hm : m.Lawful) (hn : n.Lawful) (o : DiffOpts) (h : Hdr DiffOpts) (rule : DiffOpts → Bool)
    (hk : h.kind = .plain) (hi : h.ign = .orElse rule) {d : Change DiffOpts}
    (hd : Change.check (.super h none false none (manifestChildren order text m n)) = .ok d) :
    (treeOf o d).loud = true ↔ ∃ t, Expected m n t ∧ LineChanged m n t ∧ ¬ LineIgnored m n o t := by
  obtain ⟨ts, f, _, ht, hs, hc⟩ := lines_check order text m n ho hm hn
  rw [Change.check, hc] at hd
  simp only [Except.ok.injEq] at hd
  subst hd
  have hf : ∀ t ∈ ts, ((f t).loud o = true ↔ LineChanged m n t ∧ ¬ LineIgnored m n o t) := by
    intro t h
    rw [Change.loud, Bool.and_eq_true, Bool.not_eq_true', (hs t h).changed, ← (hs t h).ignored,
      Bool.not_eq_true]
  have hkids : (∃ t ∈ ts, (f t).loud o = true) ↔ ∃ t, Expected m n t ∧ LineChanged m n t ∧ ¬ LineIgnored m n o t := by
    constructor
    · rintro ⟨t, h1, h2⟩; exact ⟨t, (ht t).1 h1, (hf t h1).1 h2⟩
    · rintro ⟨t, h1, h2⟩; exact ⟨t, (ht t).2 h1, (hf t ((ht t).2 h1)).2 h2⟩
  rw [← hkids, treeOf, Tree.loud, treesLoud_any, treesOf_map, List.any_map, List.any_map, Bool.or_eq_true]
  constructor
  · rintro (hl | hl)
    · refine Classical.byContradiction fun hno => ?_
      have hall : Change.allIgnored o (ts.map f) = true := by
        rw [Change.allIgnored_iff]
        intro x hx hx'
        obtain ⟨t, h1, rfl⟩ := List.mem_map.1 hx
        cases hig : (f t).isIgnored o with
        | true => rfl
        | false => exact absurd ⟨t, h1, by rw [Change.loud, hx', hig]; rfl⟩ hno
      change (Change.loud o (.super h none _ none (ts.map f))) = true at hl
      rw [Change.loud, Bool.and_eq_true, Bool.not_eq_true'] at hl
      have he : (ts.map f).isEmpty = false := by
        cases ts with
        | nil => have h1 := hl.1; rw [Change.isChange, hk] at h1; simp at h1
        | cons t ts => rfl
      have h2 := hl.2
      simp only [Change.isIgnored, hi, hl.1, hall, he] at h2
      simp at h2
    · obtain ⟨t, h1, h2⟩ := List.any_eq_true.1 hl
      simp only [Function.comp] at h2
      exact ⟨t, h1, by rw [← loud_childless o _ (hs t h1).childless]; exact h2⟩
  · rintro ⟨t, h1, h2⟩
    refine .inr (List.any_eq_true.2 ⟨t, h1, ?_⟩)
    simp only [Function.comp]
    rw [loud_childless o _ (hs t h1).childless]
    exact h2

/-- The marks on what is shown of an entry with one comparison below it. -/
theorem loud_single (o : DiffOpts) (h : Hdr DiffOpts) (b : Bool) (kid y : Change DiffOpts)
    (hy : Change.check (.super h none b none [kid]) = .ok y) :
    ∃ d, kid.check = .ok d ∧ ((treeOf o y).loud = true ↔ y.loud o = true ∨ (treeOf o d).loud = true) := by
  cases hd : kid.check with
  | error e => simp [Change.check, Change.checkAll, hd] at hy
  | ok d =>
    rw [check_single _ _ _ _ _ hd, Except.ok.injEq] at hy
    subst hy
    refine ⟨d, rfl, ?_⟩
    rw [treeOf, Tree.loud, treesOf, treesOf, treesLoud, treesLoud, Bool.or_false, Bool.or_eq_true]
    exact Iff.rfl

theorem loud_raw (o : DiffOpts) (h : Hdr DiffOpts) (label x y : Str) (hk : h.kind = .plain) (hi : h.ign = .inherit)
    {d : Change DiffOpts}
    (hd : Change.check (.leaf h (some (checkImpl label (.ok true) (.ok x) (.ok y))) false none) = .ok d) :
    (treeOf o d).loud = true := by
  obtain ⟨t, ht⟩ := check_leaf h label true x y false none
  rw [ht, Except.ok.injEq] at hd
  subst hd
  rw [loud_childless _ _ rfl, Change.loud]
  simp [Change.isChange, Change.isIgnored, hk, hi]

/-- The marks on a changed entry. -/
theorem telling_iff (E : JarEnv) (ho : IsSetOrder E.order) (l r : Archive) (hlr : ReadableJars l r) (o : DiffOpts)
    (n : Str) (b c : Bytes) (hd : ¬ IsDirName n) (hb : HasContent l n b) (hc : HasContent r n c) (hne : b ≠ c)
    (k : EntryKind) (hk : k ≠ .cls) (y : Change DiffOpts) (hy : (entryObject E l r n .diff k).check = .ok y) :
    (treeOf o y).loud = true ↔ y.loud o = true ∨ Telling o b c k := by
  have hx := openRead_zip hlr.leftOpen hlr.leftConsistent hlr.leftZip hd hb
  have hz := openRead_zip hlr.rightOpen hlr.rightConsistent hlr.rightZip hd hc
  have hraw : readBoth (fun p => .ok p) l r n = .ok (Payload.bytes b, Payload.bytes c) := readBoth_ok hx hz rfl rfl
  have hne' : decide (Payload.bytes b ≠ Payload.bytes c) = true := by simpa using hne
  have hman : ∀ (h : Hdr DiffOpts) (g : Manifest × Manifest → Change DiffOpts) (hd : Hdr DiffOpts)
      (rule : DiffOpts → Bool), hd.kind = .plain → hd.ign = .orElse rule →
      (∀ p, g p = .super hd none false none (manifestChildren E.order E.text p.1 p.2)) →
      Change.check (.super h none true none (orRaise ((readBoth parsePayload l r n).map fun p => [g p]))) = .ok y →
      ((treeOf o y).loud = true ↔ y.loud o = true ∨ ∃ m n, emptyManifest.parse b = .ok m ∧
        emptyManifest.parse c = .ok n ∧ ∃ t, Expected m n t ∧ LineChanged m n t ∧ ¬ LineIgnored m n o t) := by
    intro h g hd rule hk hi hg hy
    have hr : readBoth parsePayload l r n = (emptyManifest.parse b).bind fun m =>
        (emptyManifest.parse c).map fun n => (m, n) := by
      simp only [readBoth, hx, hz, parsePayload]
      cases emptyManifest.parse b with
      | error e => rfl
      | ok m =>
        cases emptyManifest.parse c with
        | error e => rfl
        | ok n => rfl
    rw [hr] at hy
    cases hb' : emptyManifest.parse b with
    | error e => rw [hb'] at hy; simp [Except.bind, Except.map, orRaise, raising, Change.check, Change.checkAll] at hy
    | ok m =>
    cases hc' : emptyManifest.parse c with
    | error e =>
      rw [hb', hc'] at hy; simp [Except.bind, Except.map, orRaise, raising, Change.check, Change.checkAll] at hy
    | ok n' =>
    rw [hb', hc'] at hy
    simp only [Except.bind, Except.map, orRaise, hg] at hy
    obtain ⟨d, h1, h2⟩ := loud_single o _ _ _ _ hy
    rw [h2, lines_loud ho E.text (C68_parsed _ _ hb').1 (C68_parsed _ _ hc').1 o hd rule hk hi h1]
    simp
  cases k with
  | cls => exact absurd rfl hk
  | manifest => exact hman _ _ _ _ rfl rfl (fun p => rfl) hy
  | sigfile => exact hman _ _ _ _ rfl rfl (fun p => rfl) hy
  | sigblock =>
    change (jarSignatureBlockFileChange l r n true).check = _ at hy
    unfold jarSignatureBlockFileChange at hy
    rw [hraw] at hy
    simp only [Except.map, orRaise, hne'] at hy
    obtain ⟨d, h1, h2⟩ := loud_single o _ _ _ _ hy
    rw [h2, loud_raw o _ _ _ _ rfl rfl h1]
    simp [Telling]
  | other =>
    change (jarGenericFileChange l r n true).check = _ at hy
    unfold jarGenericFileChange at hy
    rw [hraw] at hy
    simp only [Except.map, orRaise, hne'] at hy
    obtain ⟨d, h1, h2⟩ := loud_single o _ _ _ _ hy
    rw [h2, loud_raw o _ _ _ _ rfl rfl h1]
    simp [Telling]

/-- C174, for exactly which comparisons: those with status 1, and those where no entry with changes that are not
ignored is ignored. The page has a mark in the other cases too. -/
theorem C174_exact (E : JarEnv) (hup : IsUpper E.up) (ho : IsSetOrder E.order) (l r : Archive)
    (hlr : ReadableJars l r)
    (hq : ∀ n b c, HasContent l n b → HasContent r n c → b ≠ c → KindOf E.up n .cls → '"' ∉ n) (o : DiffOpts)
    (f : PageFrame) (hf : f.Plain) (page : List Frag) (h : jarReportPage E l r o f = .ok page) :
    (loudOn (renderFrags page) = true ↔ jarReportStatus E l r o = .ok 1 ∨ HiddenChange E.up l r o) ∧
    (jarReportStatus E l r o = .ok (if loudOn (renderFrags page) then 1 else 0) ↔
      jarReportStatus E l r o = .ok 1 ∨ ¬ HiddenChange E.up l r o) := by
  have key : loudOn (renderFrags page) = true ↔ jarReportStatus E l r o = .ok 1 ∨ HiddenChange E.up l r o := by
    constructor
    · intro hl
      obtain ⟨t, cs', h1, h2, h3, _⟩ := jar_marks E hup ho l r hlr hq o f hf page h
      rw [h1] at hl
      cases hs : t || cs'.any (Change.loud o) with
      | true => rw [h2, hs]; exact .inl rfl
      | false =>
        rw [Bool.or_eq_false_iff] at hs
        rw [hs.1, Bool.false_or, treesOf_map, List.any_map, List.any_eq_true] at hl
        obtain ⟨x, hx, hxl⟩ := hl
        simp only [Function.comp] at hxl
        have hno : x.loud o = false := by
          have := List.any_eq_false.1 hs.2 x hx
          simpa using this
        obtain ⟨ev, n, k, y, hk, hd, hy, rfl⟩ := h3 x hx
        by_cases hex : ev = .diff ∧ Excused o n k
        · obtain ⟨rfl, hex⟩ := hex
          obtain ⟨b, c, hdir, hb, hc, hne⟩ := hd rfl
          have hcls : k ≠ .cls := by rintro rfl; exact hex
          refine .inr ⟨n, b, c, k, hdir, hb, hc, hne, hk, hex, ?_⟩
          rw [jarEntryChange_eq E hup l r _ n k hk] at hy hxl hno
          have hrep : isReported (entryObject E l r n .diff k) = false := by
            cases k <;> first | rfl | exact absurd rfl hcls
          rw [hrep] at hxl hno
          rcases (telling_iff E ho l r hlr o n b c hdir hb hc hne k hcls y hy).1 hxl with h4 | h4
          · exact absurd h4 (by simpa using hno)
          · exact h4
        · rw [event_faithful E hup l r o ev n k hk (fun e he => hex ⟨e, he⟩) hy, hno] at hxl
          simp at hxl
    · rintro (hs | ⟨n, b, c, k, hdir, hb, hc, hne, hk, hex, ht⟩)
      · exact (C174_partial E hup ho l r hlr hq o f hf page h).2.1 hs
      · obtain ⟨t, cs', h1, _, _, h4⟩ := jar_marks E hup ho l r hlr hq o f hf page h
        obtain ⟨y, hy, hm⟩ := h4 n b c hdir hb hc hne
        have hcls : k ≠ .cls := by rintro rfl; exact hex
        rw [jarEntryChange_eq E hup l r _ n k hk] at hy hm
        have hrep : isReported (entryObject E l r n .diff k) = false := by
          cases k <;> first | rfl | exact absurd rfl hcls
        rw [hrep] at hm
        have := (telling_iff E ho l r hlr o n b c hdir hb hc hne k hcls y hy).2 (.inr ht)
        rw [h1, Bool.or_eq_true, treesOf_map, List.any_map, List.any_eq_true]
        exact .inr ⟨y, hm, this⟩
  refine ⟨key, ?_⟩
  obtain ⟨⟨s, hs1, hs⟩, _⟩ := C174_partial E hup ho l r hlr hq o f hf page h
  rw [hs] at key ⊢
  simp only [Except.ok.injEq] at key ⊢
  cases hl : loudOn (renderFrags page) with
  | true =>
    rw [hl] at key
    simp only [if_true]
    constructor
    · exact .inl
    · rintro (h1 | h1)
      · exact h1
      · rcases key.1 rfl with h2 | h2
        · exact h2
        · exact absurd h2 h1
  | false =>
    rw [hl] at key
    simp only [Bool.false_eq_true, if_false]
    have h1 : ¬ (s = 1 ∨ HiddenChange E.up l r o) := fun h => by simpa using key.2 h
    rw [not_or] at h1
    constructor
    · exact fun _ => .inr h1.2
    · intro _; omega

/-- With `--ignore-manifest` the changed manifest is ignored, but not the section below it. -/
example : HiddenChange demoEnv.up (manifestJar 66) (manifestJar 67) (jarOpts [("ignore_manifest".toList, true)] []) := by
  refine ⟨"META-INF/MANIFEST.MF".toList, _, _, .manifest, by rw [isDirName_iff]; decide +kernel,
    ⟨[], _, [], rfl, rfl, rfl, by simp⟩, ⟨[], _, [], rfl, rfl, rfl, by simp⟩, by decide +kernel, ?_, ?_, ?_⟩
  · rfl
  · exact .inr (by decide +kernel)
  · refine ⟨_, _, rfl, rfl, .main, trivial, ?_, ?_⟩
    · change _ ≠ _; decide +kernel
    · rintro ⟨h, _⟩; exact h (by decide +kernel)

end Javatools
