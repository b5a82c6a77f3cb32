import Verif.Props.ClassRows
/-
Reading tables off the HTML page of a class comparison (used for C179 to C181).
-/
namespace Javatools

/-- Which tags begin a table, a row and a cell, and what of the tag and the text of a cell is of interest. Tables
begin with `<ta`. -/
structure TabReader where
  start : Str → Bool
  head : Str → Bool
  cell : Str → Bool
  keep : Str → Str → Str := fun _ text => text
  begins : ∀ s, start s = true → ∃ r, s = 't' :: 'a' :: r

/-- A row begins with the text of its head; the cells up to the next head belong to it. A table ends at `</table>`. -/
def TabReader.step (R : TabReader) (p : Str × Str) (st : TabState) : TabState :=
  if R.start p.1 then ⟨[], [], st.rows :: st.tables⟩
  else if R.head p.1 then { st with cells := [], rows := (p.2, st.cells) :: st.rows }
  else if R.cell p.1 then { st with cells := R.keep p.1 p.2 :: st.cells }
  else if p.1 = "/table".toList then ⟨[], [], st.tables⟩
  else st

/-- The tables on a page. -/
def TabReader.read (R : TabReader) (page : Str) : List (List (Str × List Str)) :=
  ((piecesFrom none page).2.foldr R.step {}).tables

section
variable (R : TabReader)

def TabReader.frag (f : Frag) (st : Str × TabState) : Str × TabState :=
  match f with
  | .tag s => ([], R.step (s, st.1) st.2)
  | .esc s => (xmlEscape s ++ st.1, st.2)
  | .raw s => (s ++ st.1, st.2)

theorem TabReader.render {fs : List Frag} (h : fs.all Frag.clean = true) :
    fs.foldr R.frag ([], {}) =
      ((piecesFrom none (renderFrags fs)).1, (piecesFrom none (renderFrags fs)).2.foldr R.step {}) := by
  induction fs with
  | nil => rfl
  | cons f fs ih =>
    simp only [List.all_cons, Bool.and_eq_true] at h
    rw [List.foldr_cons, ih h.2]
    cases f with
    | tag s =>
      have h1 : tagOk false s = true := h.1
      rw [renderFrags, List.cons_append, piecesFrom, if_pos rfl, pieces_tag s false [] _ h1]
      rfl
    | esc s => rw [renderFrags, pieces_text _ _ (C116_inert s).1]; rfl
    | raw s =>
      have h1 : '<' ∉ s := by simpa [Frag.clean] using h.1
      rw [renderFrags, pieces_text _ _ h1]; rfl

/-- These pieces have these tables. -/
structure HasTabs (fs : List Frag) (ts : List (List (Str × List Str))) : Prop where
  run : ∀ t st, (fs.foldr R.frag (t, st)).2.tables = ts ++ st.tables

/-- No table begins here. -/
structure NoStart (fs : List Frag) : Prop where
  none : ∀ s, Frag.tag s ∈ fs → R.start s = false
end

variable {R : TabReader}

theorem HasTabs.nil : HasTabs R [] [] := ⟨fun _ _ => rfl⟩

theorem HasTabs.append {a b : List Frag} {x y : List (List (Str × List Str))} (h1 : HasTabs R a x) (h2 : HasTabs R b y) :
    HasTabs R (a ++ b) (x ++ y) := ⟨fun t st => by
  rw [List.foldr_append, h1.run, h2.run, List.append_assoc]⟩

theorem HasTabs.flatMap {α : Type} {f : α → List Frag} {g : α → List (List (Str × List Str))} {l : List α}
    (h : ∀ x ∈ l, HasTabs R (f x) (g x)) : HasTabs R (l.flatMap f) (l.flatMap g) := by
  induction l with
  | nil => exact .nil
  | cons a l ih =>
    rw [List.flatMap_cons, List.flatMap_cons]
    exact (h a (by simp)).append (ih fun x hx => h x (by simp [hx]))

theorem HasTabs.plain {fs : List Frag} (h : NoStart R fs) : HasTabs R fs [] := by
  induction fs with
  | nil => exact .nil
  | cons f fs ih =>
    refine ⟨fun t st => ?_⟩
    rw [List.foldr_cons, List.nil_append]
    have ih' := (ih ⟨fun s hs => h.none s (by simp [hs])⟩).run t st
    rw [List.nil_append] at ih'
    cases f with
    | tag s =>
      have hs := h.none s (by simp)
      rw [TabReader.frag, ← ih']
      unfold TabReader.step
      simp only [hs, Bool.false_eq_true, if_false]
      repeat' split
      all_goals rfl
    | esc s => exact ih'
    | raw s => exact ih'

theorem NoStart.append {a b : List Frag} (h1 : NoStart R a) (h2 : NoStart R b) : NoStart R (a ++ b) :=
  ⟨fun s h => (List.mem_append.1 h).elim (h1.none s) (h2.none s)⟩

theorem NoStart.cons {s : Str} {fs : List Frag} (h1 : R.start s = false) (h2 : NoStart R fs) : NoStart R (.tag s :: fs) :=
  ⟨fun x h => (List.mem_cons.1 h).elim (fun e => by injection e with e; rw [e]; exact h1) (h2.none x)⟩

theorem NoStart.nil : NoStart R [] := ⟨fun _ h => absurd h List.not_mem_nil⟩

theorem NoStart.esc {s : Str} {fs : List Frag} (h : NoStart R fs) : NoStart R (.esc s :: fs) :=
  ⟨fun x hx => (List.mem_cons.1 hx).elim (fun e => by simp at e) (h.none x)⟩

theorem NoStart.raw {s : Str} {fs : List Frag} (h : NoStart R fs) : NoStart R (.raw s :: fs) :=
  ⟨fun x hx => (List.mem_cons.1 hx).elim (fun e => by simp at e) (h.none x)⟩

theorem NoStart.flatMap {α : Type} {f : α → List Frag} {l : List α} (h : ∀ x ∈ l, NoStart R (f x)) :
    NoStart R (l.flatMap f) :=
  ⟨fun s hm => by
    obtain ⟨x, hx, h2⟩ := List.mem_flatMap.1 hm
    exact (h x hx).none s h2⟩

theorem TabReader.not_start {s : Str} (h : s.take 2 ≠ ['t', 'a']) : R.start s = false := by
  cases e : R.start s with
  | false => rfl
  | true =>
    obtain ⟨r, hr⟩ := R.begins s e
    rw [hr] at h
    exact absurd rfl h

theorem NoStart.tg {s : String} {fs : List Frag} (hs : s.toList.take 2 ≠ ['t', 'a']) (h : NoStart R fs) :
    NoStart R (tg s :: fs) := .cons (TabReader.not_start hs) h

/-- Pieces that are given one by one. -/
macro "nostart" : tactic => `(tactic| repeat' (first
  | with_reducible refine NoStart.append ?_ ?_
  | exact NoStart.nil
  | with_reducible exact NoStart.esc NoStart.nil
  | with_reducible refine NoStart.esc ?_
  | with_reducible refine NoStart.raw ?_
  | (unfold txt; with_reducible refine NoStart.raw ?_)
  | with_reducible refine NoStart.tg (by decide) ?_
  | with_reducible refine NoStart.cons (by assumption) ?_))

theorem divStart {s : String} : (("div class=\"" ++ s ++ "\"").toList).take 2 ≠ ['t', 'a'] := by
  have hd : "div class=\"".toList = 'd' :: "iv class=\"".toList := by decide +kernel
  rw [String.toList_append, String.toList_append, hd]
  simp

theorem headStart {s : String} : (("h2 id=\"" ++ s ++ "\"").toList).take 2 ≠ ['t', 'a'] := by
  have hd : "h2 id=\"".toList = 'h' :: "2 id=\"".toList := by decide +kernel
  rw [String.toList_append, String.toList_append, hd]
  simp

theorem cellStart {c : Cell} : (cellTag c).take 2 ≠ ['t', 'a'] := by
  have hd : "td".toList = ['t', 'd'] := by decide +kernel
  unfold cellTag
  rw [hd, List.append_assoc, List.cons_append, List.cons_append, List.take_succ_cons, List.take_succ_cons]
  intro e
  injection e with _ e
  injection e with e _
  exact absurd e (by decide)

theorem NoStart.div {type : String} {v : Verdict} {fs : List Frag} (h : NoStart R fs) :
    NoStart R (changeDiv type v fs) := by
  unfold changeDiv
  exact NoStart.append (NoStart.cons (TabReader.not_start divStart) h) (by nostart)

theorem HasTabs.div {type : String} {v : Verdict} {fs : List Frag} {ts : List (List (Str × List Str))}
    (h : HasTabs R fs ts) : HasTabs R (changeDiv type v fs) ts := by
  have := ((HasTabs.plain (NoStart.cons (TabReader.not_start (divStart (s := divClasses type v))) .nil)).append h).append
    (.plain (show NoStart R [Javatools.tg "/div"] by nostart))
  rw [List.nil_append, List.append_nil] at this
  exact this

theorem HasTabs.collect {fs : List Frag} {ts : List (List (Str × List Str))} (h : HasTabs R fs ts) :
    HasTabs R (collectDiv fs) ts := by
  have := ((HasTabs.plain (show NoStart R [Javatools.tg "div class=\"collect\""] by nostart)).append h).append
    (.plain (show NoStart R [Javatools.tg "/div"] by nostart))
  rw [List.nil_append, List.append_nil] at this
  exact this

theorem noStart_heading (type label : String) (desc : Str) : NoStart R (subHeading type label desc) := by
  unfold subHeading
  refine NoStart.cons (TabReader.not_start headStart) ?_
  nostart

theorem noStart_subRow (spec : RowSpec) (s : Sub) : NoStart R (subRow spec s) := by
  unfold subRow RowSpec.text
  split
  · cases spec.escapes <;> cases spec.marks <;> simp only [reduceIte, Bool.false_eq_true] <;> nostart
  · split
    · cases spec.escapes <;> cases spec.closes <;> simp only [reduceIte, Bool.false_eq_true] <;> nostart
    · nostart

theorem noStart_subRows (specs : List RowSpec) (subs : List Sub) : NoStart R (subRows specs subs) := by
  induction specs generalizing subs with
  | nil => exact .nil
  | cons spec specs ih =>
    cases subs with
    | nil => exact .nil
    | cons s subs => exact (noStart_subRow spec s).append (ih subs)

theorem noStart_left (h : R.start tabTag.toList = false) (specs : List RowSpec) (subs : List Sub) :
    NoStart R (leftTable specs subs) := by
  unfold leftTable
  exact NoStart.append (NoStart.append (.tg (by decide) (.tg (by decide) (.cons h .nil))) (noStart_subRows ..)) (by nostart)

theorem noStart_anno (h : R.start "table class=\"annotations\"".toList = false) (type label : String) (a : AnnoView) :
    NoStart R (annoFrags type label a) := by
  refine NoStart.div (((show NoStart R _ by nostart).append ?_).append (by nostart))
  split
  · refine ((show NoStart R _ from .cons h (by nostart)).append (.flatMap fun r _ => ?_)).append (by nostart)
    cases r.changed <;> nostart
  · exact ((show NoStart R _ from .cons h (by nostart)).append (.flatMap fun r _ => by nostart)).append
      (by nostart)

theorem noStart_pool (h1 : R.start "table class=\"constant-pool\"".toList = false)
    (h2 : R.start "table class=\"dual-constant-pool\"".toList = false) (p : PoolView) : NoStart R (poolFrags p) := by
  refine NoStart.div ((((noStart_heading ..).append (by nostart)).append ?_).append (by nostart))
  split
  · refine ((show NoStart R _ from .cons h2 (by nostart)).append (.flatMap fun r _ => ?_)).append (by nostart)
    unfold poolDualRow
    cases r.right <;> dsimp only <;> nostart
  · exact ((show NoStart R _ from .cons h1 (by nostart)).append (.flatMap fun r _ => by nostart)).append
      (by nostart)

theorem noStart_code (h : R.start "table".toList = false) (c : CodeView) : NoStart R (codeFrags c) := by
  refine NoStart.div (((show NoStart R _ by unfold plainDescription; nostart).append ?_).append (by nostart))
  split
  · nostart
  · refine ((show NoStart R _ from .cons h (by
      unfold codeHeadDual codeHeadSingle; split <;> nostart)).append
      (.flatMap fun r _ => ?_)).append (by nostart)
    refine NoStart.append (NoStart.tg (by decide) (.flatMap fun x _ => .cons (TabReader.not_start cellStart) (by nostart))) (by nostart)

theorem NoStart.collect {fs : List Frag} (h : NoStart R fs) : NoStart R (collectDiv fs) := by
  unfold collectDiv
  exact (NoStart.tg (by decide) h).append (by nostart)

/-- A page, from what its parts have. -/
theorem reads_page (ht : R.start tabTag.toList = false) {p : ClassPage} {a b c f m : List (List (Str × List Str))}
    (ha : HasTabs R (annoFrags "ClassAnnotationsChange" "Class runtime annotations" p.annos) a)
    (hb : HasTabs R (annoFrags "ClassInvisibleAnnotationsChange" "Class runtime invisible annotations" p.invisible) b)
    (hc : HasTabs R (poolFrags p.pool) c) (hf : HasTabs R (membersFrags "ClassFieldsChange" "Fields" p.fields) f)
    (hm : HasTabs R (membersFrags "ClassMethodsChange" "Methods" p.methods) m) (h : ∀ t ∈ p.raws, '<' ∉ t) :
    R.read p.html = a ++ b ++ c ++ f ++ m := by
  unfold ClassPage.html TabReader.read
  have hr := congrArg (fun x => x.2.tables) (R.render (clean_page p h))
  simp only at hr
  rw [← hr]
  have : HasTabs R (classFrags p) ((((((([] ++ []) ++ a) ++ b) ++ c) ++ f) ++ m) ++ []) := by
    unfold classFrags
    refine (((((((HasTabs.plain (by nostart)).append (.plain ?_)).append ha).append hb).append hc).append hf).append
      hm).append (.plain (by nostart))
    unfold infoFrags
    exact .div ((noStart_heading ..).append (noStart_left ht ..))
  rw [this.run [] {}]
  simp

end Javatools
