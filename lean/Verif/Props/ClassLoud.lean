import Verif.Props.ClassPageText
/-
C173: the exit status of a class comparison is what the marks on the blocks of its HTML page say.
-/
namespace Javatools
open Spec

/-! ### Reading the marks -/

/-- The start of a block of a change that is marked as changed, but not as ignored. -/
def loudTag (tag : Str) : Bool :=
  let ws := classWords tag
  ws.contains "Change".toList && ws.contains "is_changed".toList && !ws.contains "is_ignored".toList

/-- The page has a block that is marked as changed, but not as ignored. -/
def loudOn (page : Str) : Bool := (tagsOf page).any loudTag

example : loudOn "<div class=\"Change FieldChange is_changed is_ignored\"><b></b></div>".toList = false := by
  decide +kernel
example : loudOn "<b><div class=\"Change FieldChange is_unchanged\"><div class=\"Change X is_changed\">".toList = true := by
  decide +kernel
example : loudOn "<td class=\"is_changed\">Change</td>".toList = false := by decide +kernel

/-- A change that is not ignored. -/
def Verdict.loud (v : Verdict) : Bool := v.changed && !v.ignored

/-! ### The parts of a page -/

/-- Whether one of these pieces starts such a block. -/
def loudFrags (fs : List Frag) : Bool := (fragTags fs).any loudTag

theorem loud_append (a b : List Frag) : loudFrags (a ++ b) = (loudFrags a || loudFrags b) := by
  unfold loudFrags; rw [fragTags_append, List.any_append]

theorem loud_nil : loudFrags [] = false := rfl

theorem loud_flatMap {α : Type} (f : α → List Frag) (l : List α) :
    loudFrags (l.flatMap f) = l.any fun x => loudFrags (f x) := by
  induction l with
  | nil => rfl
  | cons a l ih => rw [List.flatMap_cons, loud_append, ih, List.any_cons]

theorem loud_tag (s : Str) (fs : List Frag) : loudFrags (.tag s :: fs) = (loudTag s || loudFrags fs) := rfl

/-- No such block starts here. -/
structure Calm (fs : List Frag) : Prop where
  none : loudFrags fs = false

theorem Calm.nil : Calm [] := ⟨rfl⟩
theorem Calm.append {a b : List Frag} (h1 : Calm a) (h2 : Calm b) : Calm (a ++ b) :=
  ⟨by rw [loud_append, h1.none, h2.none]; rfl⟩
theorem Calm.esc {s : Str} {fs : List Frag} (h : Calm fs) : Calm (.esc s :: fs) := ⟨h.none⟩
theorem Calm.raw {s : Str} {fs : List Frag} (h : Calm fs) : Calm (.raw s :: fs) := ⟨h.none⟩
theorem Calm.tag {s : Str} {fs : List Frag} (hs : loudTag s = false) (h : Calm fs) : Calm (.tag s :: fs) :=
  ⟨by rw [loud_tag, hs, h.none]; rfl⟩
theorem Calm.tg {s : String} {fs : List Frag} (hs : loudTag s.toList = false) (h : Calm fs) : Calm (tg s :: fs) :=
  .tag hs h
theorem Calm.flatMap {α : Type} {f : α → List Frag} {l : List α} (h : ∀ x ∈ l, Calm (f x)) : Calm (l.flatMap f) :=
  ⟨by rw [loud_flatMap, List.any_eq_false]; exact fun x hx => by rw [(h x hx).none]; decide⟩

/-- A list of pieces that are given one by one. -/
macro "calm" : tactic => `(tactic| repeat' (first
  | with_reducible refine Calm.append ?_ ?_
  | exact Calm.nil
  | with_reducible refine Calm.esc ?_
  | with_reducible refine Calm.raw ?_
  | (unfold txt; with_reducible refine Calm.raw ?_)
  | with_reducible refine Calm.tg (by decide +kernel) ?_))

theorem loudTag_div : ∀ type ∈ pageTypes, ∀ v : Verdict,
    loudTag ("div class=\"" ++ divClasses type v ++ "\"").toList = v.loud := by
  intro type ht v
  rcases v with ⟨_ | _, _ | _⟩ <;> revert type <;> decide +kernel

theorem loud_div {type : String} (ht : type ∈ pageTypes) (v : Verdict) (fs : List Frag) :
    loudFrags (changeDiv type v fs) = (v.loud || loudFrags fs) := by
  unfold changeDiv
  rw [loud_append, show loudFrags [tg "/div"] = false by decide +kernel, Bool.or_false]
  unfold tg
  rw [loud_tag, loudTag_div type ht]

theorem loud_div_calm {type : String} (ht : type ∈ pageTypes) (v : Verdict) {fs : List Frag} (h : Calm fs) :
    loudFrags (changeDiv type v fs) = v.loud := by
  rw [loud_div ht, h.none, Bool.or_false]

theorem calm_subRow (spec : RowSpec) (s : Sub) : Calm (subRow spec s) := by
  unfold subRow RowSpec.text
  split
  · cases spec.escapes <;> cases spec.marks <;> simp only [reduceIte, Bool.false_eq_true] <;> calm
  · split
    · cases spec.escapes <;> cases spec.closes <;> simp only [reduceIte, Bool.false_eq_true] <;> calm
    · calm

theorem calm_subRows (specs : List RowSpec) (subs : List Sub) : Calm (subRows specs subs) := by
  induction specs generalizing subs with
  | nil => exact .nil
  | cons spec specs ih =>
    cases subs with
    | nil => exact .nil
    | cons s subs => exact (calm_subRow spec s).append (ih subs)

theorem calm_leftTable (specs : List RowSpec) (subs : List Sub) : Calm (leftTable specs subs) :=
  ((show Calm _ by calm).append (calm_subRows specs subs)).append (by calm)

theorem loud_anno {type : String} (ht : type ∈ pageTypes) (label : String) (a : AnnoView) :
    loudFrags (annoFrags type label a) = a.verdict.loud := by
  refine loud_div_calm ht _ (((show Calm _ by calm).append ?_).append (by calm))
  split
  · refine ((show Calm _ by calm).append (.flatMap fun r _ => ?_)).append (by calm)
    cases r.changed <;> calm
  · exact ((show Calm _ by calm).append (.flatMap fun r _ => by calm)).append (by calm)

theorem calm_heading (type label : String) (desc : Str) : Calm (subHeading type label desc) := by
  have : loudTag ("h2 id=\"" ++ type ++ "\"").toList = false := by
    have hd : "h2 id=\"".toList = 'h' :: '2' :: " id=\"".toList := by decide +kernel
    have hh : "div class=\"".toList = 'd' :: "iv class=\"".toList := by decide +kernel
    have : classWords ("h2 id=\"" ++ type ++ "\"").toList = [] := by
      rw [String.toList_append, String.toList_append, hd]
      unfold classWords
      rw [hh]
      exact if_neg (by simp [List.isPrefixOf])
    unfold loudTag
    rw [this]
    rfl
  unfold subHeading
  refine Calm.tg this ?_
  calm

theorem loud_pool (p : PoolView) : loudFrags (poolFrags p) = p.verdict.loud := by
  refine loud_div_calm (by decide) _ ((((calm_heading ..).append (by calm)).append ?_).append (by calm))
  split
  · refine ((show Calm _ by calm).append (.flatMap fun r _ => ?_)).append (by calm)
    unfold poolDualRow
    cases r.right <;> dsimp only <;> calm
  · exact ((show Calm _ by calm).append (.flatMap fun r _ => by calm)).append (by calm)

theorem classWords_not_div {c : Char} (hc : c ≠ 'd') (s : Str) : classWords (c :: s) = [] := by
  have hh : "div class=\"".toList = 'd' :: "iv class=\"".toList := by decide +kernel
  unfold classWords
  rw [hh, List.isPrefixOf, beq_eq_false_iff_ne.2 hc.symm]
  rfl

theorem loudTag_cell (c : Cell) : loudTag (cellTag c) = false := by
  have hd : "td".toList = 't' :: ['d'] := by decide +kernel
  unfold cellTag
  rw [hd, List.cons_append, List.cons_append]
  unfold loudTag
  rw [classWords_not_div (by decide)]
  rfl

theorem loud_code (c : CodeView) : loudFrags (codeFrags c) = c.verdict.loud := by
  refine loud_div_calm (by decide) _
    (((show Calm _ by unfold plainDescription; calm).append ?_).append (by calm))
  split
  · calm
  · refine ((show Calm _ by unfold codeHeadDual codeHeadSingle; split <;> calm).append
      (.flatMap fun r _ => ?_)).append (by calm)
    refine Calm.append (Calm.tg (by decide +kernel) (.flatMap fun x _ => .tag (loudTag_cell x) (by calm))) (by calm)

theorem loud_collect (fs : List Frag) : loudFrags (collectDiv fs) = loudFrags fs := by
  unfold collectDiv
  rw [loud_append, show loudFrags [tg "/div"] = false by decide +kernel, Bool.or_false]
  unfold tg
  rw [loud_tag, show loudTag "div class=\"collect\"".toList = false by decide +kernel, Bool.false_or]

/-- The verdicts on a member and its parts. -/
def MemberView.verdicts : MemberView → List Verdict
  | .field v _ _ a b => [v, a.verdict, b.verdict]
  | .method v _ _ a b c => [v, a.verdict, b.verdict, c.verdict]
  | .methodAdded v _ _ => [v]
  | .methodRemoved v _ _ => [v]
  | .fieldAdded v => [v]
  | .fieldRemoved v => [v]

theorem loud_member (k : MemberView) : loudFrags (memberFrags k) = k.verdicts.any Verdict.loud := by
  have h3 : ∀ s : Str, loudFrags [tg "h3", .esc s, tg "/h3"] = false := fun s =>
    (show Calm [tg "h3", .esc s, tg "/h3"] by calm).none
  cases k with
  | field v name subs a b =>
    unfold memberFrags
    rw [loud_div (by decide), loud_append, loud_append, h3, (calm_leftTable ..).none, loud_collect, loud_append,
      loud_anno (by decide), loud_anno (by decide)]
    simp [MemberView.verdicts]
  | method v head subs a b c =>
    unfold memberFrags
    rw [loud_div (by decide), loud_append, loud_append, h3, (calm_leftTable ..).none, loud_collect, loud_append,
      loud_append, loud_anno (by decide), loud_anno (by decide), loud_code]
    simp [MemberView.verdicts, Bool.or_assoc]
  | methodAdded v head subs =>
    unfold memberFrags
    rw [loud_div_calm (by decide)]
    · simp [MemberView.verdicts]
    · refine ((show Calm _ from ?_).append (calm_subRows lonelyRows subs)).append (by calm)
      calm
  | methodRemoved v head subs =>
    unfold memberFrags
    rw [loud_div_calm (by decide)]
    · simp [MemberView.verdicts]
    · exact (show Calm _ by calm).append (calm_leftTable lonelyRows subs)
  | fieldAdded v =>
    unfold memberFrags
    rw [loud_div_calm (by decide) _ (by unfold plainDescription; calm)]
    simp [MemberView.verdicts]
  | fieldRemoved v =>
    unfold memberFrags
    rw [loud_div_calm (by decide) _ (by unfold plainDescription; calm)]
    simp [MemberView.verdicts]

theorem loud_members {type : String} (ht : type ∈ pageTypes) (label : String) (m : MembersView) :
    loudFrags (membersFrags type label m) =
      (m.verdict.loud || m.kids.any fun k => k.verdicts.any Verdict.loud) := by
  unfold membersFrags
  rw [loud_div ht, loud_append, (calm_heading ..).none, Bool.false_or]
  congr 1
  split
  · rename_i h
    rw [List.isEmpty_iff] at h
    rw [h]; rfl
  · rw [loud_collect, loud_flatMap]
    simp only [loud_member]

/-- The verdicts on the parts of a class. -/
def ClassPage.verdicts (p : ClassPage) : List Verdict :=
  [p.infoVerdict, p.annos.verdict, p.invisible.verdict, p.pool.verdict, p.fields.verdict, p.methods.verdict]

/-- The marks on a page. -/
theorem loudOn_page (p : ClassPage) (h : ∀ t ∈ p.raws, '<' ∉ t) :
    loudOn p.html = (p.verdicts.any Verdict.loud ||
      (p.fields.kids ++ p.methods.kids).any fun k => k.verdicts.any Verdict.loud) := by
  unfold loudOn ClassPage.html
  rw [tagsOf_render (clean_page p h)]
  change loudFrags (classFrags p) = _
  unfold classFrags
  rw [loud_append, loud_append, loud_append, loud_append, loud_append, loud_append, loud_append,
    loud_members (by decide), loud_members (by decide), loud_pool, loud_anno (by decide), loud_anno (by decide),
    (show Calm [tg "h1", .esc p.title, tg "/h1", tg "div id=\"report-details\""] by calm).none,
    (show Calm [tg "/div"] by calm).none]
  unfold infoFrags
  rw [loud_div_calm (by decide) _ ((calm_heading ..).append (calm_leftTable ..))]
  simp only [ClassPage.verdicts, List.any_cons, List.any_nil, List.any_append, Bool.or_false, Bool.false_or]
  generalize (p.fields.kids.any fun k => k.verdicts.any Verdict.loud) = x
  generalize (p.methods.kids.any fun k => k.verdicts.any Verdict.loud) = y
  cases p.infoVerdict.loud <;> cases p.annos.verdict.loud <;> cases p.invisible.verdict.loud <;>
    cases p.pool.verdict.loud <;> cases p.fields.verdict.loud <;> cases p.methods.verdict.loud <;>
    cases x <;> cases y <;> rfl

/-! ### Checked changes -/

/-- A change that is not ignored. -/
def Change.loud {O : Type} (o : O) (c : Change O) : Bool := c.isChange && !c.isIgnored o

theorem verdictOf_loud (o : Opts) (c : Change Opts) : (verdictOf o c).loud = c.loud o := rfl

theorem exitStatus_loud {O : Type} (o : O) (c : Change O) : c.exitStatus o = if c.loud o then 1 else 0 := by
  unfold Change.exitStatus Change.loud
  cases c.isChange <;> cases c.isIgnored o <;> rfl

/-- A composite without overrides is one iff a child is one. -/
theorem loud_super {name label : String} {d : Option (Bool → Str)} {b : Bool} {desc : Option Str}
    {cs : List (Change Opts)} {c : Change Opts}
    (h : (Change.super (superHdr name label d) none b desc cs).check = .ok c) (o : Opts) :
    c.loud o = c.collect.any (Change.loud o) ∧ ∀ x ∈ c.collect, ∃ y ∈ cs, y.check = .ok x := by
  rw [Change.check] at h
  split at h
  · simp at h
  · rename_i cs' b' hk
    simp only [Except.ok.injEq] at h
    subst h
    obtain ⟨h1, h2, h3, h4⟩ := Change.checkAll_ok _ _ _ _ hk
    refine ⟨?_, h1⟩
    rw [Bool.eq_iff_iff]
    have hi := Change.C35_ignored_iff o (superHdr name label d) none b' none cs' trivial
    have hc : (Change.super (superHdr name label d) none b' none cs').isChange = b' := rfl
    rw [hc, h3] at hi
    unfold Change.loud
    rw [hc, Change.collect, List.any_eq_true]
    simp only [Bool.and_eq_true, Bool.not_eq_true', h3, Bool.false_eq_true, false_or]
    constructor
    · rintro ⟨⟨x, hx, hx'⟩, hn⟩
      refine Classical.byContradiction fun hno => ?_
      have := hi.2 ⟨.inr ⟨x, hx, hx'⟩, fun e => by rw [e] at hx; simp at hx, fun y hy hy' => ?_⟩
      · rw [hn] at this; simp at this
      · cases hyi : y.isIgnored o with
        | true => rfl
        | false => exact absurd ⟨y, hy, hy', hyi⟩ hno
    · rintro ⟨x, hx, hx', hn⟩
      refine ⟨⟨x, hx, hx'⟩, ?_⟩
      cases hg : (Change.super (superHdr name label d) none b' none cs').isIgnored o with
      | false => rfl
      | true =>
        have := (hi.1 hg).2.2 x hx hx'
        rw [hn] at this; simp at this

theorem loud_kid {name label : String} {d : Option (Bool → Str)} {b : Bool} {desc : Option Str}
    {cs : List (Change Opts)} {c : Change Opts}
    (h : (Change.super (superHdr name label d) none b desc cs).check = .ok c) {o : Opts} {x : Change Opts}
    (hx : x ∈ c.collect) (hl : x.loud o = true) : c.loud o = true := by
  rw [(loud_super h o).1, List.any_eq_true]
  exact ⟨x, hx, hl⟩

theorem childNamed_mem {name : String} {kids : List (Change Opts)} {c : Change Opts}
    (h : childNamed name kids = .ok c) : c ∈ kids := by
  unfold childNamed at h
  split at h
  · rename_i x hx
    simp only [Except.ok.injEq] at h
    subst h
    exact List.mem_of_find?_eq_some hx
  · simp at h

theorem annoView_verdict {E : ClassPageEnv} {o : Opts} {lp rp : Pool} {la ra : Attribs} {attr : String}
    {c : Change Opts} {v : AnnoView} (h : annoViewOf E o lp rp la ra attr c = .ok v) : v.verdict = verdictOf o c := by
  unfold annoViewOf at h
  simp only at h
  split at h
  · simp at h
  · split at h
    · split at h
      · simp at h
      · split at h
        · simp at h
        · simp only [Except.ok.injEq] at h; subst h; rfl
    · split at h
      · simp at h
      · simp only [Except.ok.injEq] at h; subst h; rfl

theorem poolView_verdict {E : ClassPageEnv} {o : Opts} {l r : Pool} {c : Change Opts} {v : PoolView}
    (h : poolViewOf E o l r c = .ok v) : v.verdict = verdictOf o c := by
  unfold poolViewOf at h
  split at h
  · split at h
    · simp at h
    · split at h
      · simp at h
      · simp only [Except.ok.injEq] at h; subst h; rfl
  · split at h
    · simp at h
    · simp only [Except.ok.injEq] at h; subst h; rfl

theorem codeView_verdict {o : Opts} {l r : Option CodeInfo} {c : Change Opts} {v : CodeView}
    (h : codeViewOf o l r c = .ok v) : v.verdict = verdictOf o c := by
  unfold codeViewOf at h
  split at h
  · simp at h
  · simp only [Except.ok.injEq] at h; subst h; rfl

/-- The verdicts on a field are those on the change and on children of it. -/
theorem fieldView_verdicts {E : ClassPageEnv} {o : Opts} {lp rp : Pool} {d : MemberDelta} {c : Change Opts}
    {v : MemberView} (h : fieldView E o lp rp d c = .ok v) :
    ∀ w ∈ v.verdicts, w = verdictOf o c ∨ ∃ x ∈ c.collect, w = verdictOf o x := by
  cases d with
  | added r => simp only [fieldView, Except.ok.injEq] at h; subst h; simp [MemberView.verdicts]
  | removed r => simp only [fieldView, Except.ok.injEq] at h; subst h; simp [MemberView.verdicts]
  | changed l r =>
    unfold fieldView at h
    obtain ⟨_, _, h⟩ := except_bind_ok h
    obtain ⟨_, _, h⟩ := except_bind_ok h
    obtain ⟨_, e1, h⟩ := except_bind_ok h
    obtain ⟨_, e2, h⟩ := except_bind_ok h
    obtain ⟨_, e3, h⟩ := except_bind_ok h
    obtain ⟨_, e4, h⟩ := except_bind_ok h
    simp only [Except.ok.injEq] at h
    subst h
    intro w hw
    simp only [MemberView.verdicts, List.mem_cons, List.not_mem_nil, or_false] at hw
    rcases hw with rfl | rfl | rfl
    · exact .inl rfl
    · exact .inr ⟨_, childNamed_mem e1, annoView_verdict e2⟩
    · exact .inr ⟨_, childNamed_mem e3, annoView_verdict e4⟩

/-- The verdicts on a method are those on the change and on children of it. -/
theorem methodView_verdicts {E : ClassPageEnv} {o : Opts} {lp rp : Pool} {d : MemberDelta} {c : Change Opts}
    {v : MemberView} (h : methodView E o lp rp d c = .ok v) :
    ∀ w ∈ v.verdicts, w = verdictOf o c ∨ ∃ x ∈ c.collect, w = verdictOf o x := by
  cases d with
  | added r =>
    unfold methodView at h
    obtain ⟨_, _, h⟩ := except_bind_ok h
    obtain ⟨_, _, h⟩ := except_bind_ok h
    simp only [Except.ok.injEq] at h; subst h; simp [MemberView.verdicts]
  | removed r =>
    unfold methodView at h
    obtain ⟨_, _, h⟩ := except_bind_ok h
    obtain ⟨_, _, h⟩ := except_bind_ok h
    simp only [Except.ok.injEq] at h; subst h; simp [MemberView.verdicts]
  | changed l r =>
    unfold methodView at h
    obtain ⟨_, _, h⟩ := except_bind_ok h
    obtain ⟨_, _, h⟩ := except_bind_ok h
    obtain ⟨_, e1, h⟩ := except_bind_ok h
    obtain ⟨_, e2, h⟩ := except_bind_ok h
    obtain ⟨_, e3, h⟩ := except_bind_ok h
    obtain ⟨_, e4, h⟩ := except_bind_ok h
    obtain ⟨_, _, h⟩ := except_bind_ok h
    obtain ⟨_, _, h⟩ := except_bind_ok h
    obtain ⟨_, e5, h⟩ := except_bind_ok h
    obtain ⟨_, e6, h⟩ := except_bind_ok h
    simp only [Except.ok.injEq] at h
    subst h
    intro w hw
    simp only [MemberView.verdicts, List.mem_cons, List.not_mem_nil, or_false] at hw
    rcases hw with rfl | rfl | rfl | rfl
    · exact .inl rfl
    · exact .inr ⟨_, childNamed_mem e1, annoView_verdict e2⟩
    · exact .inr ⟨_, childNamed_mem e3, annoView_verdict e4⟩
    · exact .inr ⟨_, childNamed_mem e5, codeView_verdict e6⟩

theorem viewsOf_beside {view : MemberDelta → Change Opts → Res MemberView} : ∀ {ds : List MemberDelta}
    {cs : List (Change Opts)} {vs : List MemberView}, viewsOf view ds cs = .ok vs →
    ∀ v ∈ vs, ∃ d ∈ ds, ∃ c ∈ cs, view d c = .ok v := by
  intro ds
  induction ds with
  | nil => intro cs vs h v hv; simp only [viewsOf, Except.ok.injEq] at h; subst h; simp at hv
  | cons d ds ih =>
    intro cs vs h v hv
    cases cs with
    | nil => simp only [viewsOf, Except.ok.injEq] at h; subst h; simp at hv
    | cons c cs =>
      rw [viewsOf] at h
      split at h
      · simp at h
      · rename_i w hw
        split at h
        · simp at h
        · rename_i ws hws
          simp only [Except.ok.injEq] at h
          subst h
          rcases List.mem_cons.1 hv with rfl | hv
          · exact ⟨d, by simp, c, by simp, hw⟩
          · obtain ⟨d', h1, c', h2, h3⟩ := ih hws v hv
            exact ⟨d', by simp [h1], c', by simp [h2], h3⟩

/-- A mark on a member or a part of it is also on the block of all members. -/
theorem members_loud {E : ClassPageEnv} {o : Opts} {view : MemberDelta → Change Opts → Res MemberView}
    {name label what : String} {children : Member → Member → List (Change Opts)} {lp rp : Pool}
    {ls rs : List Member} {c : Change Opts} {v : MembersView}
    (hw : ∀ d c v, view d c = .ok v → ∀ w ∈ v.verdicts, w = verdictOf o c ∨ ∃ x ∈ c.collect, w = verdictOf o x)
    (hc : (membersChange E.texts E.print.lim name label what children lp rp ls rs).check = .ok c)
    (hv : membersViewOf E o view lp rp ls rs c = .ok v) :
    v.verdict = verdictOf o c ∧ ((v.kids.any fun k => k.verdicts.any Verdict.loud) = true → c.loud o = true) := by
  unfold membersViewOf at hv
  split at hv
  · simp at hv
  · rename_i ds hd
    split at hv
    · simp at hv
    · rename_i vs hvs
      simp only [Except.ok.injEq] at hv
      subst hv
      refine ⟨rfl, fun h => ?_⟩
      unfold membersChange at hc
      simp only [hd] at hc
      obtain ⟨k, hk, h⟩ := List.any_eq_true.1 h
      obtain ⟨w, hw', h⟩ := List.any_eq_true.1 h
      obtain ⟨d, _, x, hx, e⟩ := viewsOf_beside hvs k hk
      refine loud_kid hc hx ?_
      rcases hw d x k e w hw' with rfl | ⟨y, hy, rfl⟩
      · exact h
      · obtain ⟨z, hz, hzx⟩ := (loud_super hc o).2 x hx
        obtain ⟨d', _, rfl⟩ := List.mem_map.1 hz
        cases d' with
        | added r =>
          simp only [deltaChange, Change.check, Except.ok.injEq] at hzx
          subst hzx; simp [Change.collect] at hy
        | removed r =>
          simp only [deltaChange, Change.check, Except.ok.injEq] at hzx
          subst hzx; simp [Change.collect] at hy
        | changed a b => exact loud_kid hzx hy h

/-- The page shows the verdicts on the class. -/
theorem page_loud {E : ClassPageEnv} {o : Opts} {l r : ClassInfo} {p : ClassPage}
    (h : classReportPage E o l r = .ok p) :
    ∃ c, (javaClassChange E.texts E.print.lim E.print.depth l r).check = .ok c ∧
      c.loud o = (p.verdicts.any Verdict.loud ||
        (p.fields.kids ++ p.methods.kids).any fun k => k.verdicts.any Verdict.loud) := by
  unfold classReportPage at h
  split at h
  · simp at h
  · rename_i c hc
    refine ⟨c, hc, ?_⟩
    have hc0 := hc
    unfold javaClassChange at hc hc0
    rw [(loud_super hc0 o).1]
    rw [Change.check] at hc
    split at hc
    · simp at hc
    · rename_i kids b hk
      simp only [Except.ok.injEq] at hc
      subst hc
      rw [Change.collect] at h ⊢
      unfold classChildren at hk
      obtain ⟨c1, k1, _, rfl, h1, hk⟩ := checkAll_step hk
      obtain ⟨c2, k2, _, rfl, h2, hk⟩ := checkAll_step hk
      obtain ⟨c3, k3, _, rfl, h3, hk⟩ := checkAll_step hk
      obtain ⟨c4, k4, _, rfl, h4, hk⟩ := checkAll_step hk
      obtain ⟨c5, k5, _, rfl, h5, hk⟩ := checkAll_step hk
      obtain ⟨c6, k6, _, rfl, h6, hk⟩ := checkAll_step hk
      obtain ⟨rfl, _⟩ := checkAll_done hk
      simp only at h
      obtain ⟨_, _, h⟩ := except_bind_ok h
      obtain ⟨_, e1, h⟩ := except_bind_ok h
      obtain ⟨_, e2, h⟩ := except_bind_ok h
      obtain ⟨_, e3, h⟩ := except_bind_ok h
      obtain ⟨_, e4, h⟩ := except_bind_ok h
      obtain ⟨_, e5, h⟩ := except_bind_ok h
      obtain ⟨_, e6, h⟩ := except_bind_ok h
      simp only [Except.ok.injEq] at h
      subst h
      obtain ⟨f1, f2⟩ := members_loud (fun d c v => fieldView_verdicts) h5 e5
      obtain ⟨m1, m2⟩ := members_loud (fun d c v => methodView_verdicts) h6 e6
      simp only [ClassPage.verdicts, List.any_cons, List.any_nil, List.any_append, annoView_verdict e2,
        annoView_verdict e3, poolView_verdict e4, f1, m1, verdictOf_loud, Bool.or_false]
      revert f2 m2
      generalize List.any _ _ = x
      generalize List.any _ _ = y
      cases c1.loud o <;> cases c2.loud o <;> cases c3.loud o <;> cases c4.loud o <;> cases c5.loud o <;>
        cases c6.loud o <;> cases x <;> cases y <;> decide

/-! ### C173 -/

section
variable {E : ClassPageEnv} {o : Opts} {l r : ClassInfo} {p : ClassPage}

/-- C173. A class comparison exits with status 1 if its HTML page has a block that is marked as
changed and not as ignored, and with status 0 otherwise. -/
theorem C173_status (h : classReportPage E o l r = .ok p) (hl : JavaMembers E.print.lim l)
    (hr : JavaMembers E.print.lim r) (hpl : PlainTexts E.print l) (hpr : PlainTexts E.print r) :
    classDiffStatus E.texts E.print.lim E.print.depth o l r = .ok (if loudOn p.html then 1 else 0) := by
  obtain ⟨c, hc, e⟩ := page_loud h
  unfold classDiffStatus
  rw [hc, loudOn_page p (page_clean h hl hr hpl hpr), ← e, ← exitStatus_loud]
  rfl
end

example : (classReportPage pageEnv [] oldPageClass newPageClass).map (fun p => loudOn p.html) = .ok true ∧
    classDiffStatus pageEnv.texts 10 10 [] oldPageClass newPageClass = .ok 1 := by decide +kernel

/-- The class with an older version only. -/
def oldVersionClass : ClassInfo := { oldPageClass with version := (50, 0) }

example : (classReportPage pageEnv (parseOpts [.flag "version".toList]) oldVersionClass oldPageClass).map
      (fun p => (loudOn p.html, p.infoVerdict)) = .ok (false, ⟨true, true⟩) ∧
    classDiffStatus pageEnv.texts 10 10 (parseOpts [.flag "version".toList]) oldVersionClass oldPageClass = .ok 0 := by
  decide +kernel

end Javatools
