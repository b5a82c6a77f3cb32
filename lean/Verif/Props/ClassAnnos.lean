import Verif.Props.ClassConsts
/-
C180: the tables of annotations on the HTML page of a class comparison.
-/
namespace Javatools
open Spec

/-! ### Reading the page -/

/-- The tables of annotations: a row has an index and the cells of one or both sides. -/
def annoReader : TabReader where
  start := fun s => s == "table class=\"annotations\"".toList
  head := fun s => s == "td class=\"const-index\"".toList
  cell := fun s => s == "td class=\"const-value\"".toList || s == "td class=\"const-value is_changed\"".toList ||
    s == "td class=\"const-value is_unchanged\"".toList
  begins := fun s h => by
    have h1 : "table class=\"annotations\"".toList = 't' :: 'a' :: "ble class=\"annotations\"".toList := by
      decide +kernel
    rw [beq_iff_eq] at h
    exact ⟨_, h.trans h1⟩

example : annoReader.read
    "<table class=\"annotations\"><tr><th>Index</th></tr><tr><td class=\"const-index\">0</td><td class=\"const-value\">A()</td><td class=\"const-value is_changed\">B()</td></tr></table>".toList =
    [[("0".toList, ["A()".toList, "B()".toList])]] := by decide +kernel

/-! ### What the tables should be -/

/-- The text of an annotation; nothing where there is none. -/
def ShowsAnno (E : PrintEnv) (pool : Pool) (a : Option AVal) (s : Str) : Prop :=
  match a with
  | none => s = []
  | some a => annoText E pool a = .ok s

/-- The same, but nothing for an annotation without elements. -/
def ShowsElements (E : PrintEnv) (pool : Pool) (a : Option AVal) (s : Str) : Prop :=
  (s = [] ∧ ((a = none) ∨ ∃ t, a = some (.anno t []))) ∨
    ∃ b, a = some b ∧ (∀ t, b ≠ .anno t []) ∧ annoText E pool b = .ok s

/-- The table for the annotations `xs` and `ys` of both versions: if they are equal, the texts of them all in order;
otherwise the texts of both sides, by position. -/
def AnnoTable (shows : Pool → Option AVal → Str → Prop) (E : PrintEnv) (lp rp : Pool) (xs ys : List AVal)
    (t : List (Str × List Str)) : Prop :=
  (annosDiffer lp rp E.lim (.ok xs) (.ok ys) = .ok false ∧ t.length = xs.length ∧
    ∀ (i : Nat) a, xs[i]? = some a → ∃ s, annoText E lp a = .ok s ∧ t[i]? = some ((toString i).toList, [s])) ∨
  (annosDiffer lp rp E.lim (.ok xs) (.ok ys) = .ok true ∧ t.length = max xs.length ys.length ∧
    ∀ i < max xs.length ys.length, ∃ u v, shows lp xs[i]? u ∧ shows rp ys[i]? v ∧
      t[i]? = some ((toString i).toList, [u, v]))

/-- The tables for the visible and the invisible annotations of something. -/
def AnnoTables (shows : Pool → Option AVal → Str → Prop) (E : PrintEnv) (lp rp : Pool) (la ra : Attribs)
    (t : List (Str × List Str) × List (Str × List Str)) : Prop :=
  (∃ xs ys, getAnnotations la lp E.lim E.depth "RuntimeVisibleAnnotations" = .ok xs ∧
    getAnnotations ra rp E.lim E.depth "RuntimeVisibleAnnotations" = .ok ys ∧ AnnoTable shows E lp rp xs ys t.1) ∧
  ∃ xs ys, getAnnotations la lp E.lim E.depth "RuntimeInvisibleAnnotations" = .ok xs ∧
    getAnnotations ra rp E.lim E.depth "RuntimeInvisibleAnnotations" = .ok ys ∧ AnnoTable shows E lp rp xs ys t.2

def bothTables (t : List (Str × List Str) × List (Str × List Str)) : List (List (Str × List Str)) := [t.1, t.2]

/-- The page has two tables for the class, two for every field of both classes and two for every method of both. -/
def AnnosShown (shows : Pool → Option AVal → Str → Prop) (E : PrintEnv) (l r : ClassInfo) (page : Str) : Prop :=
  ∃ (cls : List (Str × List Str) × List (Str × List Str))
    (fs ms : List (Member × List (Str × List Str) × List (Str × List Str))),
    annoReader.read page = bothTables cls ++ fs.flatMap (fun x => bothTables x.2) ++ ms.flatMap (fun x => bothTables x.2) ∧
    AnnoTables shows E l.pool r.pool l.attribs r.attribs cls ∧
    (fs.map Prod.fst).Nodup ∧
    (∀ m, m ∈ fs.map Prod.fst ↔ Fate.Of (SameField E.lim l.pool r.pool) l.fields r.fields .kept m) ∧
    (∀ x ∈ fs, ∃ b ∈ r.fields, SameField E.lim l.pool r.pool x.1 b ∧
      AnnoTables shows E l.pool r.pool x.1.attribs b.attribs x.2) ∧
    (ms.map Prod.fst).Nodup ∧
    (∀ m, m ∈ ms.map Prod.fst ↔ Fate.Of (SameMethod E.lim l.pool r.pool) l.methods r.methods .kept m) ∧
    ∀ x ∈ ms, ∃ b ∈ r.methods, SameMethod E.lim l.pool r.pool x.1 b ∧
      AnnoTables shows E l.pool r.pool x.1.attribs b.attribs x.2

/-- C180 in full. -/
def C180_full : Prop := ∀ (E : ClassPageEnv) (o : Opts) (l r : ClassInfo) (p : ClassPage),
  classReportPage E o l r = .ok p → JavaMembers E.print.lim l → JavaMembers E.print.lim r →
  PlainTexts E.print l → PlainTexts E.print r → AnnosShown (ShowsAnno E.print) E.print l r p.html

/-! ### The tables on the page -/

def AnnoView.cells (a : AnnoView) : List (Str × List Str) :=
  a.rows.map fun r => (natText r.index, if a.verdict.changed then [r.left, r.right] else [r.left])

theorem anno_tag (s : String) (t : Str) (st : TabState) :
    annoReader.frag (tg s) (t, st) = ([], annoReader.step (s.toList, t) st) := rfl

theorem anno_text (s : String) (st : TabState) : annoReader.frag (txt s) ([], st) = (s.toList, st) := by
  simp [TabReader.frag, txt]

theorem anno_raw (s : Str) (st : TabState) : annoReader.frag (.raw s) ([], st) = (s, st) := by
  simp [TabReader.frag]

theorem anno_other {s : String} (h : (annoReader.start s.toList || annoReader.head s.toList ||
    annoReader.cell s.toList || decide (s = "/table")) = false) (t : Str) (st : TabState) :
    annoReader.step (s.toList, t) st = st := by
  simp only [Bool.or_eq_false_iff, decide_eq_false_iff_not] at h
  unfold TabReader.step
  simp only [h.1.1.1, h.1.1.2, h.1.2, Bool.false_eq_true, if_false]
  rw [if_neg (fun e => h.2 (String.toList_inj.1 e))]

theorem anno_cell {s : String} (h : (!annoReader.start s.toList && !annoReader.head s.toList &&
    annoReader.cell s.toList) = true) (t : Str) (st : TabState) :
    annoReader.step (s.toList, t) st = { st with cells := t :: st.cells } := by
  simp only [Bool.and_eq_true, Bool.not_eq_true'] at h
  unfold TabReader.step
  simp only [h.1.1, h.1.2, h.2, Bool.false_eq_true, if_false, if_true]
  rfl

theorem anno_head {s : String} (h : (!annoReader.start s.toList && annoReader.head s.toList) = true) (t : Str)
    (st : TabState) :
    annoReader.step (s.toList, t) st = { st with cells := [], rows := (t, st.cells) :: st.rows } := by
  simp only [Bool.and_eq_true, Bool.not_eq_true'] at h
  unfold TabReader.step
  simp only [h.1, h.2, Bool.false_eq_true, if_false, if_true]

theorem anno_index (t : Str) (st : TabState) :
    annoReader.step ("td class=\"const-index\"".toList, t) st = { st with cells := [], rows := (t, st.cells) :: st.rows } :=
  anno_head (by decide +kernel) t st

theorem anno_stop (t : Str) (st : TabState) :
    annoReader.step ("/table".toList, t) st = ⟨[], [], st.tables⟩ := by
  have h1 : annoReader.start "/table".toList = false := by decide +kernel
  have h2 : annoReader.head "/table".toList = false := by decide +kernel
  have h3 : annoReader.cell "/table".toList = false := by decide +kernel
  unfold TabReader.step
  simp only [h1, h2, h3, Bool.false_eq_true, if_false, if_true]

theorem anno_begin {s : String} (h : annoReader.start s.toList = true) (t : Str) (st : TabState) :
    annoReader.step (s.toList, t) st = ⟨[], [], st.rows :: st.tables⟩ := by
  unfold TabReader.step
  simp only [h, if_true]

theorem anno_start (t : Str) (st : TabState) :
    annoReader.step ("table class=\"annotations\"".toList, t) st = ⟨[], [], st.rows :: st.tables⟩ :=
  anno_begin (by decide +kernel) t st

theorem anno_tr (t : Str) (st : TabState) : annoReader.step ("tr".toList, t) st = st := anno_other (by decide +kernel) t st
theorem anno_tr' (t : Str) (st : TabState) : annoReader.step ("/tr".toList, t) st = st := anno_other (by decide +kernel) t st
theorem anno_td' (t : Str) (st : TabState) : annoReader.step ("/td".toList, t) st = st := anno_other (by decide +kernel) t st
theorem anno_th (t : Str) (st : TabState) : annoReader.step ("th".toList, t) st = st := anno_other (by decide +kernel) t st
theorem anno_thr (t : Str) (st : TabState) : annoReader.step ("th rowspan=\"2\"".toList, t) st = st :=
  anno_other (by decide +kernel) t st
theorem anno_thc (t : Str) (st : TabState) : annoReader.step ("th colspan=\"2\"".toList, t) st = st :=
  anno_other (by decide +kernel) t st
theorem anno_th' (t : Str) (st : TabState) : annoReader.step ("/th".toList, t) st = st := anno_other (by decide +kernel) t st
theorem anno_thead (t : Str) (st : TabState) : annoReader.step ("thead".toList, t) st = st := anno_other (by decide +kernel) t st
theorem anno_thead' (t : Str) (st : TabState) : annoReader.step ("/thead".toList, t) st = st := anno_other (by decide +kernel) t st
theorem anno_value (t : Str) (st : TabState) :
    annoReader.step ("td class=\"const-value\"".toList, t) st = { st with cells := t :: st.cells } :=
  anno_cell (by decide +kernel) t st
theorem anno_valuec (t : Str) (st : TabState) :
    annoReader.step ("td class=\"const-value is_changed\"".toList, t) st = { st with cells := t :: st.cells } :=
  anno_cell (by decide +kernel) t st
theorem anno_valueu (t : Str) (st : TabState) :
    annoReader.step ("td class=\"const-value is_unchanged\"".toList, t) st = { st with cells := t :: st.cells } :=
  anno_cell (by decide +kernel) t st

theorem annoRows_run {α : Type} {f : α → List Frag} {g : α → Str × List Str} (l : List α)
    (h : ∀ x ∈ l, ∀ t rows ts, ∃ t', (f x).foldr annoReader.frag (t, ⟨[], rows, ts⟩) = (t', ⟨[], g x :: rows, ts⟩))
    (t : Str) (rows : List (Str × List Str)) (ts : List (List (Str × List Str))) :
    ∃ t', (l.flatMap f).foldr annoReader.frag (t, ⟨[], rows, ts⟩) = (t', ⟨[], l.map g ++ rows, ts⟩) := by
  induction l with
  | nil => exact ⟨t, rfl⟩
  | cons x l ih =>
    obtain ⟨t1, e1⟩ := ih fun y hy => h y (by simp [hy])
    obtain ⟨t2, e2⟩ := h x (by simp) t1 (l.map g ++ rows) ts
    exact ⟨t2, by rw [List.flatMap_cons, List.foldr_append, e1, e2]; rfl⟩

theorem tabs_annoDual (rows : List AnnoRow) : HasTabs annoReader (annoDual rows)
    [rows.map fun r => (natText r.index, [r.left, r.right])] := ⟨fun t st => by
  unfold annoDual
  have hs : [tg "/table"].foldr annoReader.frag (t, st) = ([], ⟨[], [], st.tables⟩) := by
    rw [List.foldr_cons, List.foldr_nil, anno_tag, anno_stop]
  rw [List.foldr_append, List.foldr_append, hs]
  obtain ⟨t1, e1⟩ := annoRows_run (g := fun r => (natText r.index, [r.left, r.right])) rows (fun r _ t rows ts => by
    refine ⟨[], ?_⟩
    show List.foldr annoReader.frag _ [tg "tr",
      tg "td class=\"const-index\"", .raw (natText r.index), tg "/td",
      tg "td class=\"const-value\"", .raw r.left, tg "/td",
      tg (if r.changed then "td class=\"const-value is_changed\""
        else "td class=\"const-value is_unchanged\""), .raw r.right, tg "/td", tg "/tr"] = _
    cases r.changed <;> simp only [reduceIte, Bool.false_eq_true, List.foldr_cons, List.foldr_nil, anno_tag, anno_raw,
      anno_tr, anno_tr', anno_td', anno_value, anno_valuec, anno_valueu, anno_index]) [] [] st.tables
  rw [e1]
  simp only [List.foldr_cons, List.foldr_nil, anno_tag, anno_text, anno_tr, anno_tr', anno_th, anno_thr, anno_thc,
    anno_th', anno_thead, anno_thead', anno_start, List.append_nil]
  rfl⟩

theorem tabs_annoSingle (rows : List AnnoRow) : HasTabs annoReader (annoSingle rows)
    [rows.map fun r => (natText r.index, [r.left])] := ⟨fun t st => by
  unfold annoSingle
  have hs : [tg "/table"].foldr annoReader.frag (t, st) = ([], ⟨[], [], st.tables⟩) := by
    rw [List.foldr_cons, List.foldr_nil, anno_tag, anno_stop]
  rw [List.foldr_append, List.foldr_append, hs]
  obtain ⟨t1, e1⟩ := annoRows_run (g := fun r => (natText r.index, [r.left])) rows (fun r _ t rows ts => by
    refine ⟨[], ?_⟩
    show List.foldr annoReader.frag _ [tg "tr",
      tg "td class=\"const-index\"", .raw (natText r.index), tg "/td",
      tg "td class=\"const-value\"", .raw r.left, tg "/td", tg "/tr"] = _
    simp only [List.foldr_cons, List.foldr_nil, anno_tag, anno_raw,
      anno_tr, anno_tr', anno_td', anno_value, anno_index]) [] [] st.tables
  rw [e1]
  simp only [List.foldr_cons, List.foldr_nil, anno_tag, anno_text, anno_tr, anno_tr', anno_th,
    anno_th', anno_thead, anno_thead', anno_start, List.append_nil]
  rfl⟩

theorem tabs_anno (type label : String) (a : AnnoView) : HasTabs annoReader (annoFrags type label a) [a.cells] := by
  unfold annoFrags
  refine HasTabs.div ?_
  have : HasTabs annoReader (if a.verdict.changed then annoDual a.rows else annoSingle a.rows) [a.cells] := by
    unfold AnnoView.cells
    cases a.verdict.changed with
    | true => exact tabs_annoDual _
    | false => exact tabs_annoSingle _
  have h2 := ((HasTabs.plain (show NoStart annoReader [tg "div class=\"description\"", txt label, tg "/div",
      tg "div class=\"details\"", tg "div class=\"lrdata\""] by nostart)).append this).append
    (.plain (show NoStart annoReader [tg "/div", tg "/div"] by nostart))
  rw [List.nil_append, List.append_nil] at h2
  exact h2

theorem anno_left : annoReader.start tabTag.toList = false := by decide +kernel
theorem anno_code : annoReader.start "table".toList = false := by decide +kernel

/-- The tables of annotations of a member. -/
def MemberView.annoTables : MemberView → Option (List (Str × List Str) × List (Str × List Str))
  | .field _ _ _ a b => some (a.cells, b.cells)
  | .method _ _ _ a b _ => some (a.cells, b.cells)
  | _ => none

theorem annos_member (k : MemberView) : HasTabs annoReader (memberFrags k) (k.annoTables.toList.flatMap bothTables) := by
  have hl := @noStart_left annoReader anno_left
  cases k with
  | field v name subs a b =>
    have := HasTabs.div (type := "FieldChange") (v := v)
      (((HasTabs.plain (show NoStart annoReader [tg "h3", .esc name, tg "/h3"] by nostart)).append
        (.plain (hl fieldRows subs))).append
      (.collect ((tabs_anno "FieldAnnotationsChange" "Field runtime annotations" a).append
        (tabs_anno "FieldInvisibleAnnotationsChange" "Field runtime invisible annotations" b))))
    exact this
  | method v head subs a b c =>
    have := HasTabs.div (type := "MethodChange") (v := v)
      (((HasTabs.plain (show NoStart annoReader [tg "h3", .esc head, tg "/h3"] by nostart)).append
        (.plain (hl methodRows subs))).append
      (.collect (((tabs_anno "MethodAnnotationsChange" "Method runtime annotations" a).append
        (tabs_anno "MethodInvisibleAnnotationsChange" "Method runtime invisible annotations" b)).append
        (.plain (noStart_code anno_code c)))))
    exact this
  | methodAdded v head subs =>
    refine .plain (.div ?_)
    have h := anno_left
    have := noStart_subRows (R := annoReader) lonelyRows subs
    exact ((show NoStart annoReader [tg "h3", .esc head, tg "/h3", tg "div class=\"description\"", txt "Method Added",
      tg "/div\n<div class=\"details\"", tg "div class=\"lrdata\"", .tag tabTag.toList] by nostart).append this).append
      (by nostart)
  | methodRemoved v head subs =>
    exact .plain (.div ((show NoStart annoReader [tg "h3", .esc head, tg "/h3",
      tg "div class=\"description\"", txt "Method Removed", tg "/div"] by nostart).append (hl ..)))
  | fieldAdded v => exact .plain (.div (by unfold plainDescription; nostart))
  | fieldRemoved v => exact .plain (.div (by unfold plainDescription; nostart))

theorem annos_members (type label : String) (m : MembersView) :
    HasTabs annoReader (membersFrags type label m) (m.kids.flatMap fun k => k.annoTables.toList.flatMap bothTables) := by
  unfold membersFrags
  refine .div ?_
  have : HasTabs annoReader (if m.kids.isEmpty then [] else collectDiv (m.kids.flatMap memberFrags))
      (m.kids.flatMap fun k => k.annoTables.toList.flatMap bothTables) := by
    cases e : m.kids with
    | nil => exact .nil
    | cons k ks => exact .collect (.flatMap fun x _ => annos_member x)
  exact (HasTabs.plain (noStart_heading type label m.desc)).append this

theorem annosOn_page (p : ClassPage) (h : ∀ t ∈ p.raws, '<' ∉ t) : annoReader.read p.html =
    [p.annos.cells, p.invisible.cells] ++ (p.fields.kids.flatMap fun k => k.annoTables.toList.flatMap bothTables) ++
      p.methods.kids.flatMap fun k => k.annoTables.toList.flatMap bothTables := by
  rw [reads_page anno_left (tabs_anno ..) (tabs_anno ..)
    (.plain (noStart_pool (by decide +kernel) (by decide +kernel) p.pool)) (annos_members ..) (annos_members ..) h]
  rfl

/-! ### From the classes -/

theorem cell_elements {E : PrintEnv} {pool : Pool} {a : Option AVal} {s : Str} (h : dualAnnoCell E pool a = .ok s) :
    ShowsElements E pool a s := by
  unfold dualAnnoCell at h
  split at h
  · simp only [Except.ok.injEq] at h
    exact .inl ⟨h.symm, .inl rfl⟩
  · simp only [Except.ok.injEq] at h
    exact .inl ⟨h.symm, .inr ⟨_, rfl⟩⟩
  · rename_i b hb
    exact .inr ⟨_, rfl, fun t e => hb t e, h⟩

theorem view_table {E : ClassPageEnv} {o : Opts} {lp rp : Pool} {la ra : Attribs} {attr : String} {c : Change Opts}
    {v : AnnoView} (hd : annosDiffer lp rp E.print.lim (getAnnotations la lp E.print.lim E.print.depth attr)
      (getAnnotations ra rp E.print.lim E.print.depth attr) = .ok c.isChange)
    (h : annoViewOf E o lp rp la ra attr c = .ok v) :
    ∃ xs ys, getAnnotations la lp E.print.lim E.print.depth attr = .ok xs ∧
      getAnnotations ra rp E.print.lim E.print.depth attr = .ok ys ∧
      AnnoTable (ShowsElements E.print) E.print lp rp xs ys v.cells := by
  unfold annoViewOf at h
  simp only at h
  cases hx : getAnnotations la lp E.print.lim E.print.depth attr with
  | error e => rw [hx] at h; simp at h
  | ok xs =>
    cases hy : getAnnotations ra rp E.print.lim E.print.depth attr with
    | error e => rw [hx, hy] at hd; simp [annosDiffer] at hd
    | ok ys =>
      rw [hx, hy] at hd
      rw [hx, hy] at h
      simp only at h
      refine ⟨xs, ys, rfl, rfl, ?_⟩
      cases hc : c.isChange with
      | true =>
        rw [hc] at h hd
        simp only [if_true] at h
        split at h
        · simp at h
        · rename_i rows hrows
          simp only [Except.ok.injEq] at h
          subst h
          obtain ⟨g1, g2⟩ := C155_exact E.print lp rp xs ys hrows
          have hv : (verdictOf o c).changed = true := hc
          refine .inr ⟨hd, by simp [AnnoView.cells, g1], fun i hi => ?_⟩
          have hr : rows[i]? = some (rows[i]'(by omega)) := List.getElem?_eq_getElem _
          obtain ⟨q1, q2, q3, _⟩ := g2 i _ hr
          refine ⟨_, _, cell_elements q2, cell_elements q3, ?_⟩
          simp only [AnnoView.cells, List.getElem?_map, hr, Option.map_some, hv, if_true, q1]
          rfl
      | false =>
        rw [hc] at h hd
        simp only [Bool.false_eq_true, if_false] at h
        split at h
        · simp at h
        · rename_i rows hrows
          simp only [Except.ok.injEq] at h
          subst h
          obtain ⟨g1, g2⟩ := C155_unchanged E.print lp xs hrows
          have hv : (verdictOf o c).changed = false := hc
          refine .inl ⟨hd, by simp [AnnoView.cells, g1], fun i a hi => ?_⟩
          obtain ⟨s, q1, q2⟩ := g2 i a hi
          refine ⟨s, q2, ?_⟩
          simp only [AnnoView.cells, List.getElem?_map, q1, Option.map_some, hv, Bool.false_eq_true, if_false]
          rfl

theorem fieldView_annos {E : ClassPageEnv} {o : Opts} {lp rp : Pool} {d : MemberDelta} {c : Change Opts}
    {v : MemberView} (hc : (deltaChange E.texts "Field" (fieldChildren E.texts E.print.lim E.print.depth lp rp)
      lp rp d).check = .ok c) (h : fieldView E o lp rp d c = .ok v) :
    match d with
    | .changed a b => ∃ t, v.annoTables = some t ∧ AnnoTables (ShowsElements E.print) E.print lp rp a.attribs b.attribs t
    | _ => v.annoTables = none := by
  cases d with
  | added m => simp only [fieldView, Except.ok.injEq] at h; subst h; rfl
  | removed m => simp only [fieldView, Except.ok.injEq] at h; subst h; rfl
  | changed a b =>
    obtain ⟨x, hk⟩ := kept_checked hc
    unfold fieldView at h
    obtain ⟨_, e1, h⟩ := except_bind_ok h
    obtain ⟨ss, e2, h⟩ := except_bind_ok h
    obtain ⟨_, k1, h⟩ := except_bind_ok h
    obtain ⟨_, e3, h⟩ := except_bind_ok h
    obtain ⟨_, k2, h⟩ := except_bind_ok h
    obtain ⟨_, e4, h⟩ := except_bind_ok h
    simp only [Except.ok.injEq] at h
    subst h
    unfold fieldChildren at hk
    exact ⟨_, rfl, view_table (child_differ hk (by findleaf) k1) e3, view_table (child_differ hk (by findleaf) k2) e4⟩

theorem methodView_annos {E : ClassPageEnv} {o : Opts} {lp rp : Pool} {d : MemberDelta} {c : Change Opts}
    {v : MemberView} (hc : (deltaChange E.texts "Method" (methodChildren E.texts E.print.lim E.print.depth lp rp)
      lp rp d).check = .ok c) (h : methodView E o lp rp d c = .ok v) :
    match d with
    | .changed a b => ∃ t, v.annoTables = some t ∧ AnnoTables (ShowsElements E.print) E.print lp rp a.attribs b.attribs t
    | _ => v.annoTables = none := by
  cases d with
  | added m =>
    unfold methodView at h
    obtain ⟨n, e1, h⟩ := except_bind_ok h
    obtain ⟨_, e2, h⟩ := except_bind_ok h
    simp only [Except.ok.injEq] at h
    subst h
    rfl
  | removed m =>
    unfold methodView at h
    obtain ⟨n, e1, h⟩ := except_bind_ok h
    obtain ⟨_, e2, h⟩ := except_bind_ok h
    simp only [Except.ok.injEq] at h
    subst h
    rfl
  | changed a b =>
    obtain ⟨x, hk⟩ := kept_checked hc
    unfold methodView at h
    obtain ⟨_, e1, h⟩ := except_bind_ok h
    obtain ⟨_, e2, h⟩ := except_bind_ok h
    obtain ⟨_, k1, h⟩ := except_bind_ok h
    obtain ⟨_, e3, h⟩ := except_bind_ok h
    obtain ⟨_, k2, h⟩ := except_bind_ok h
    obtain ⟨_, e4, h⟩ := except_bind_ok h
    obtain ⟨_, e5, h⟩ := except_bind_ok h
    obtain ⟨_, e6, h⟩ := except_bind_ok h
    obtain ⟨_, _, h⟩ := except_bind_ok h
    obtain ⟨_, _, h⟩ := except_bind_ok h
    simp only [Except.ok.injEq] at h
    subst h
    unfold methodChildren at hk
    rw [e5, e6] at hk
    simp only at hk
    exact ⟨_, rfl, view_table (child_differ hk (by findleaf) k1) e3, view_table (child_differ hk (by findleaf) k2) e4⟩

theorem annos_made {E : ClassPageEnv} {o : Opts} {l r : ClassInfo} {p : ClassPage}
    (h : classReportPage E o l r = .ok p) :
    AnnoTables (ShowsElements E.print) E.print l.pool r.pool l.attribs r.attribs (p.annos.cells, p.invisible.cells) := by
  unfold classReportPage at h
  split at h
  · simp at h
  · rename_i c hc
    unfold javaClassChange at hc
    rw [Change.check] at hc
    split at hc
    · simp at hc
    · rename_i kids b hk
      simp only [Except.ok.injEq] at hc
      subst hc
      rw [Change.collect] at h
      unfold classChildren at hk
      obtain ⟨c1, k1, _, rfl, h1, hk⟩ := checkAll_step hk
      obtain ⟨c2, k2, _, rfl, h2, hk⟩ := checkAll_step hk
      obtain ⟨c3, k3, _, rfl, h3, hk⟩ := checkAll_step hk
      obtain ⟨c4, k4, _, rfl, h4, hk⟩ := checkAll_step hk
      obtain ⟨c5, k5, _, rfl, h5, hk⟩ := checkAll_step hk
      obtain ⟨c6, k6, _, rfl, h6, hk⟩ := checkAll_step hk
      obtain ⟨rfl, _⟩ := checkAll_done hk
      simp only at h
      obtain ⟨_, _, h⟩ := except_bind_ok h
      obtain ⟨_, e1, h⟩ := except_bind_ok h
      obtain ⟨_, e2, h⟩ := except_bind_ok h
      obtain ⟨_, e3, h⟩ := except_bind_ok h
      obtain ⟨_, e4, h⟩ := except_bind_ok h
      obtain ⟨_, e5, h⟩ := except_bind_ok h
      obtain ⟨_, e6, h⟩ := except_bind_ok h
      simp only [Except.ok.injEq] at h
      subst h
      exact ⟨view_table (leaf_differ h2) e2, view_table (leaf_differ h3) e3⟩

/-- The members that both classes have, with their tables. -/
theorem kept_annos {τ β : Type} {get : MemberView → Option τ} {out : τ → List β}
    {P : Member → Member → Prop} {Q : Member → Member → τ → Prop}
    {ls rs : List Member} {ds : List MemberDelta}
    (hn : (ds.map MemberDelta.fate).Nodup) (hf : ∀ f m, (f, m) ∈ ds.map MemberDelta.fate ↔ Fate.Of P ls rs f m)
    (hc : ∀ a b, .changed a b ∈ ds → a ∈ ls ∧ b ∈ rs ∧ P a b) {xs : List (MemberDelta × MemberView)}
    {kids : List MemberView} (h1 : xs.map Prod.fst = ds) (h2 : xs.map Prod.snd = kids)
    (h3 : ∀ x ∈ xs, match x.1 with
      | .changed a b => ∃ t, get x.2 = some t ∧ Q a b t
      | _ => get x.2 = none) :
    ∃ ms : List (Member × τ),
      (kids.flatMap fun k => (get k).toList.flatMap out) = ms.flatMap (fun x => out x.2) ∧
      (ms.map Prod.fst).Nodup ∧ (∀ m, m ∈ ms.map Prod.fst ↔ Fate.Of P ls rs .kept m) ∧
      ∀ x ∈ ms, ∃ b ∈ rs, P x.1 b ∧ Q x.1 b x.2 := by
  have hfst : ∀ xs : List (MemberDelta × MemberView), (∀ x ∈ xs, match x.1 with
      | .changed a b => ∃ t, get x.2 = some t ∧ Q a b t
      | _ => get x.2 = none) →
      (xs.filterMap fun x => (get x.2).map fun t => (x.1.fate.2, t)).map Prod.fst =
        ((xs.map fun x => x.1.fate).filter fun y => decide (y.1 = .kept)).map Prod.snd := by
    intro xs
    induction xs with
    | nil => intro _; rfl
    | cons x xs ih =>
      intro hx
      obtain ⟨d, v⟩ := x
      have ht := hx (d, v) (by simp)
      have ih' := ih fun y hy => hx y (by simp [hy])
      rw [List.filterMap_cons, List.map_cons, List.filter_cons]
      cases d with
      | added m => simp only at ht; simp only [ht, MemberDelta.fate]; exact ih'
      | removed m => simp only at ht; simp only [ht, MemberDelta.fate]; exact ih'
      | changed a b =>
        obtain ⟨t, ht, _⟩ := ht
        simp only [ht, MemberDelta.fate, Option.map_some, List.map_cons, decide_true, if_true]
        exact congrArg (a :: ·) ih'
  have hfl : ∀ xs : List (MemberDelta × MemberView),
      ((xs.map Prod.snd).flatMap fun k => (get k).toList.flatMap out) =
        (xs.filterMap fun x => (get x.2).map fun t => (x.1.fate.2, t)).flatMap (fun x => out x.2) := by
    intro xs
    induction xs with
    | nil => rfl
    | cons x xs ih =>
      rw [List.map_cons, List.flatMap_cons, ih, List.filterMap_cons]
      cases get x.2 <;> simp
  have hfate : xs.map (fun x => x.1.fate) = ds.map MemberDelta.fate := by rw [← h1, List.map_map]; rfl
  refine ⟨xs.filterMap fun x => (get x.2).map fun t => (x.1.fate.2, t), by rw [← h2, hfl], ?_, ?_, ?_⟩
  · rw [hfst xs h3, hfate, List.Nodup, List.pairwise_map]
    refine List.Pairwise.imp_of_mem ?_ (hn.filter _)
    intro a b ha hb hne e
    have ha' := (List.mem_filter.1 ha).2
    have hb' := (List.mem_filter.1 hb).2
    simp only [decide_eq_true_eq] at ha' hb'
    exact hne (Prod.ext (ha'.trans hb'.symm) e)
  · intro m
    rw [hfst xs h3, ← hf, hfate]
    constructor
    · intro hx
      obtain ⟨⟨f, m'⟩, hx1, rfl⟩ := List.mem_map.1 hx
      obtain ⟨hx, hk⟩ := List.mem_filter.1 hx1
      simp only [decide_eq_true_eq] at hk
      subst hk
      exact hx
    · intro hx
      exact List.mem_map.2 ⟨(.kept, m), List.mem_filter.2 ⟨hx, by simp⟩, rfl⟩
  · intro y hy
    obtain ⟨⟨d, v⟩, hx, e⟩ := List.mem_filterMap.1 hy
    have ht := h3 _ hx
    have hd : d ∈ ds := h1 ▸ List.mem_map_of_mem (f := Prod.fst) hx
    cases d with
    | added m => simp only at ht; simp [ht] at e
    | removed m => simp only at ht; simp [ht] at e
    | changed a b =>
      obtain ⟨t, ht, htab⟩ := ht
      simp only [ht, Option.map_some, Option.some.injEq] at e
      subst e
      exact ⟨b, (hc a b hd).2.1, (hc a b hd).2.2, htab⟩

/-- C180, exactly what the tables show: as the claim has it, but where the annotations differ, those without elements
are left blank. -/
theorem C180_exact (E : ClassPageEnv) (o : Opts) (l r : ClassInfo) (p : ClassPage)
    (h : classReportPage E o l r = .ok p) (hl : JavaMembers E.print.lim l) (hr : JavaMembers E.print.lim r)
    (hpl : PlainTexts E.print l) (hpr : PlainTexts E.print r) :
    AnnosShown (ShowsElements E.print) E.print l r p.html := by
  have hm := madeFrom h
  obtain ⟨fds, hfd, hfn, hff, hfc⟩ := fields_fates hl hr
  obtain ⟨mds, hmd, hmn, hmf, hmc⟩ := methods_fates hl hr
  obtain ⟨fc, hfc', hfv⟩ := hm.fields
  obtain ⟨mc, hmc', hmv⟩ := hm.methods
  obtain ⟨fx, f1, f2, f3⟩ := members_tables hfd hfc' hfv
  obtain ⟨mx, m1, m2, m3⟩ := members_tables hmd hmc' hmv
  obtain ⟨fs, a1, a2, a3, a4⟩ := kept_annos (get := MemberView.annoTables) (out := bothTables) (Q := fun a b t =>
    AnnoTables (ShowsElements E.print) E.print l.pool r.pool a.attribs b.attribs t) hfn hff hfc f1 f2 (fun x hx => by
      obtain ⟨c, hc, hv⟩ := f3 x hx
      obtain ⟨d, v⟩ := x
      cases d <;> exact fieldView_annos hc hv)
  obtain ⟨ms, b1, b2, b3, b4⟩ := kept_annos (get := MemberView.annoTables) (out := bothTables) (Q := fun a b t =>
    AnnoTables (ShowsElements E.print) E.print l.pool r.pool a.attribs b.attribs t) hmn hmf hmc m1 m2 (fun x hx => by
      obtain ⟨c, hc, hv⟩ := m3 x hx
      obtain ⟨d, v⟩ := x
      cases d <;> exact methodView_annos hc hv)
  refine ⟨(p.annos.cells, p.invisible.cells), fs, ms, ?_, annos_made h, a2, a3, a4, b2, b3, b4⟩
  rw [annosOn_page p (page_clean h hl hr hpl hpr), a1, b1]
  rfl

/-- Every annotation has elements. -/
def HasElements (E : PrintEnv) (pool : Pool) (a : Attribs) : Prop :=
  ∀ attr ∈ ["RuntimeVisibleAnnotations", "RuntimeInvisibleAnnotations"], ∀ xs,
    getAnnotations a pool E.lim E.depth attr = .ok xs → ∀ t, .anno t [] ∉ xs

/-- Every annotation of the class and its members has elements. -/
structure NoMarkers (E : PrintEnv) (c : ClassInfo) : Prop where
  cls : HasElements E c.pool c.attribs
  fields : ∀ m ∈ c.fields, HasElements E c.pool m.attribs
  methods : ∀ m ∈ c.methods, HasElements E c.pool m.attribs

theorem shows_elements {E : PrintEnv} {pool : Pool} {xs : List AVal} (h : ∀ t, .anno t [] ∉ xs) {i : Nat} {s : Str}
    (hs : ShowsElements E pool xs[i]? s) : ShowsAnno E pool xs[i]? s := by
  rcases hs with ⟨rfl, hs | ⟨t, hs⟩⟩ | ⟨b, hb, _, hs⟩
  · rw [hs]; rfl
  · exact absurd (List.mem_of_getElem? hs) (h t)
  · rw [hb]; exact hs

theorem table_elements {E : PrintEnv} {lp rp : Pool} {xs ys : List AVal} {t : List (Str × List Str)}
    (hx : ∀ t, .anno t [] ∉ xs) (hy : ∀ t, .anno t [] ∉ ys) (h : AnnoTable (ShowsElements E) E lp rp xs ys t) :
    AnnoTable (ShowsAnno E) E lp rp xs ys t := by
  rcases h with h | ⟨h1, h2, h3⟩
  · exact .inl h
  · refine .inr ⟨h1, h2, fun i hi => ?_⟩
    obtain ⟨u, v, q1, q2, q3⟩ := h3 i hi
    exact ⟨u, v, shows_elements hx q1, shows_elements hy q2, q3⟩

theorem tables_elements {E : PrintEnv} {lp rp : Pool} {la ra : Attribs}
    {t : List (Str × List Str) × List (Str × List Str)} (hl : HasElements E lp la) (hr : HasElements E rp ra)
    (h : AnnoTables (ShowsElements E) E lp rp la ra t) : AnnoTables (ShowsAnno E) E lp rp la ra t := by
  obtain ⟨⟨xs, ys, h1, h2, h3⟩, xs', ys', h4, h5, h6⟩ := h
  exact ⟨⟨xs, ys, h1, h2, table_elements (hl _ (by simp) xs h1) (hr _ (by simp) ys h2) h3⟩,
    xs', ys', h4, h5, table_elements (hl _ (by simp) xs' h4) (hr _ (by simp) ys' h5) h6⟩

/-- C180, proved part: for classes whose annotations all have elements. -/
theorem C180_partial (E : ClassPageEnv) (o : Opts) (l r : ClassInfo) (p : ClassPage)
    (h : classReportPage E o l r = .ok p) (hl : JavaMembers E.print.lim l) (hr : JavaMembers E.print.lim r)
    (hpl : PlainTexts E.print l) (hpr : PlainTexts E.print r) (hml : NoMarkers E.print l) (hmr : NoMarkers E.print r) :
    AnnosShown (ShowsAnno E.print) E.print l r p.html := by
  obtain ⟨cls, fs, ms, h1, h2, h3, h4, h5, h6, h7, h8⟩ := C180_exact E o l r p h hl hr hpl hpr
  refine ⟨cls, fs, ms, h1, tables_elements hml.cls hmr.cls h2, h3, h4, fun x hx => ?_, h6, h7, fun x hx => ?_⟩
  · obtain ⟨b, hb, hs, ht⟩ := h5 x hx
    have hk := (h4 x.1).1 (List.mem_map_of_mem hx)
    exact ⟨b, hb, hs, tables_elements (hml.fields _ hk.1) (hmr.fields b hb) ht⟩
  · obtain ⟨b, hb, hs, ht⟩ := h8 x hx
    have hk := (h7 x.1).1 (List.mem_map_of_mem hx)
    exact ⟨b, hb, hs, tables_elements (hml.methods _ hk.1) (hmr.methods b hb) ht⟩

/-! ### A class with an annotation added -/

/-- The class, with `@Override` (an annotation without elements) or with none. -/
def markedClass (buf : Option Bytes) : ClassInfo :=
  { emptyClass (emptyClassPool ++ [some (.utf8 "LOverride;".toList), some (.utf8 "k".toList), some (.integer 7)]) with
    attribs := match buf with
      | none => []
      | some b => [(.str "RuntimeVisibleAnnotations".toList, b)] }

def markerBytes : Bytes := [0, 1, 0, 5, 0, 0]

def elementBytes : Bytes := [0, 1, 0, 5, 0, 1, 0, 6, 73, 0, 7]

theorem marked_annos (b : Bytes) (attr : String) (h : attr ∈ ["RuntimeVisibleAnnotations", "RuntimeInvisibleAnnotations"]) :
    getAnnotations (markedClass (some b)).attribs (markedClass (some b)).pool 10 10 attr =
      if attr = "RuntimeVisibleAnnotations" then (unpackAnnos (markedClass none).pool 10 10).run b else .ok [] := by
  simp only [List.mem_cons, List.not_mem_nil, or_false] at h
  rcases h with rfl | rfl
  · rfl
  · rfl

example : (classReportPage pageEnv [] (markedClass (some elementBytes)) (markedClass none)).map
    (fun p => annoReader.read p.html) = .ok [[("0".toList, ["Override(k=I#7)".toList, "".toList])], []] := by decide +kernel

example : (classReportPage pageEnv [] (markedClass (some markerBytes)) (markedClass (some markerBytes))).map
    (fun p => annoReader.read p.html) = .ok [[("0".toList, ["Override()".toList])], []] := by decide +kernel

/-- The row is blank on both sides. -/
theorem marked_rows : (classReportPage pageEnv [] (markedClass (some markerBytes)) (markedClass none)).map
    (fun p => annoReader.read p.html) = .ok [[("0".toList, ["".toList, "".toList])], []] := by decide +kernel

theorem plain_marked (b : Option Bytes) (hb : b = none ∨ b = some markerBytes) : PlainTexts pageEnv.print (markedClass b) := by
  have h0 := plain_bare (E := pageEnv.print) (c := markedClass none) (n := "A".toList) (s := "B".toList)
    (by decide +kernel) (by decide) (by decide +kernel) (by decide) rfl rfl (by decide)
  rcases hb with rfl | rfl
  · exact h0
  · refine ⟨h0.this, h0.super, h0.interfaces, h0.exceptions, ?_, h0.fieldAnnos, h0.methodAnnos⟩
    intro attr ha xs hx a hm t ht
    rw [show getAnnotations (markedClass (some markerBytes)).attribs (markedClass (some markerBytes)).pool
      pageEnv.print.lim pageEnv.print.depth attr = _ from marked_annos markerBytes attr ha] at hx
    split at hx
    · have e : (unpackAnnos (markedClass none).pool 10 10).run markerBytes = .ok [.anno 5 []] := rfl
      rw [e, Except.ok.injEq] at hx
      subst hx
      rw [List.mem_singleton] at hm
      subst hm
      have e2 : annoText pageEnv.print (markedClass none).pool (.anno 5 []) = .ok "Override()".toList := by decide +kernel
      have e3 := (show annoText pageEnv.print (markedClass none).pool (.anno 5 []) = .ok t from ht)
      rw [e2, Except.ok.injEq] at e3
      rw [← e3]
      decide
    · rw [Except.ok.injEq] at hx
      subst hx
      simp at hm

theorem members_marked (b : Option Bytes) : JavaMembers 10 (markedClass b) :=
  ⟨by intro m h; simp [markedClass, emptyClass] at h, by intro m h; simp [markedClass, emptyClass] at h,
    List.Pairwise.nil, List.Pairwise.nil⟩

theorem C180_full_fails : ¬ C180_full := by
  intro h
  cases hp : classReportPage pageEnv [] (markedClass (some markerBytes)) (markedClass none) with
  | error e =>
    have := marked_rows
    rw [hp] at this
    simp [Except.map] at this
  | ok p =>
    have e := marked_rows
    rw [hp] at e
    simp only [Except.map, Except.ok.injEq] at e
    obtain ⟨cls, fs, ms, h1, ⟨⟨xs, ys, h2, h3, h4⟩, _⟩, _⟩ := h pageEnv [] _ _ p hp (members_marked _) (members_marked _)
      (plain_marked _ (.inr rfl)) (plain_marked _ (.inl rfl))
    rw [e] at h1
    have hx : xs = [.anno 5 []] := by
      have : getAnnotations (markedClass (some markerBytes)).attribs (markedClass (some markerBytes)).pool
          pageEnv.print.lim pageEnv.print.depth "RuntimeVisibleAnnotations" = .ok [.anno 5 []] := rfl
      rw [h2, Except.ok.injEq] at this
      exact this
    have hy : ys = [] := by
      have : getAnnotations (markedClass none).attribs (markedClass none).pool
          pageEnv.print.lim pageEnv.print.depth "RuntimeVisibleAnnotations" = .ok [] := rfl
      rw [h3, Except.ok.injEq] at this
      exact this
    subst hx hy
    have ht : cls.1 = [("0".toList, ["".toList, "".toList])] := by
      unfold bothTables at h1
      simp only [List.cons_append, List.nil_append, List.cons.injEq] at h1
      exact h1.1.symm
    rcases h4 with ⟨h4, _⟩ | ⟨_, _, h5⟩
    · simp [annosDiffer] at h4
    · obtain ⟨u, v, h6, _, h7⟩ := h5 0 (by simp)
      rw [ht] at h7
      simp only [List.getElem?_cons_zero, Option.some.injEq, Prod.mk.injEq, List.cons.injEq] at h7
      have e2 : annoText pageEnv.print (markedClass (some markerBytes)).pool (.anno 5 []) = .ok "Override()".toList := by
        decide +kernel
      have h8 : annoText pageEnv.print (markedClass (some markerBytes)).pool (.anno 5 []) = .ok u := h6
      rw [e2, Except.ok.injEq, ← h7.2.1] at h8
      revert h8
      decide

end Javatools
