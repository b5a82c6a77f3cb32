import Verif.Props.PageTables
import Verif.Props.Lines
/-
C179: the table of constants on the HTML page of a class comparison.
-/
namespace Javatools
open Spec

/-! ### Reading the page -/

def constHeadTag : String := "td class=\"const-index\""

/-- The table of the constants: a row has an index and the cells of one or both sides; the cells of a constant that
is the same on both sides are left empty. -/
def constReader : TabReader where
  start := fun s => s == "table class=\"constant-pool\"".toList || s == "table class=\"dual-constant-pool\"".toList
  head := fun s => s == constHeadTag.toList
  cell := fun s => s == "td class=\"const-type\"".toList || s == "td class=\"const-value\"".toList ||
    s == "td class=\"const-type is_changed\"".toList || s == "td class=\"const-value is_changed\"".toList
  begins := fun s h => by
    simp only [Bool.or_eq_true, beq_iff_eq] at h
    have h1 : "table class=\"constant-pool\"".toList = 't' :: 'a' :: "ble class=\"constant-pool\"".toList := by
      decide +kernel
    have h2 : "table class=\"dual-constant-pool\"".toList = 't' :: 'a' :: "ble class=\"dual-constant-pool\"".toList := by
      decide +kernel
    rcases h with rfl | rfl
    · exact ⟨_, h1⟩
    · exact ⟨_, h2⟩

example : constReader.read
    "<table><td class=\"const-index\">0</td></table><table class=\"constant-pool\"><tr><th>Index</th></tr><tr><td class=\"const-index\">1</td><td class=\"const-type\">int</td><td class=\"const-value\">5</td></tr></table>".toList =
    [[("1".toList, ["int".toList, "5".toList])]] := by decide +kernel

/-! ### What the table should be -/

/-- The constant with this index, if there is one. -/
def constAt (pool : Pool) (i : Nat) : Option Const := pool[i]?.join

/-- Type and value of a constant as they stand in the page; nothing where there is none. -/
def ShowsAt (E : PrintEnv) (c : Option Const) (tv : Str × Str) : Prop :=
  match c with
  | none => tv = ([], [])
  | some c => ∃ v, constText E c = .ok (tv.1, v) ∧ tv.2 = xmlEscape v

/-- The same, but of the number 0 only the type. -/
def ShowsButZero (E : PrintEnv) (c : Option Const) (tv : Str × Str) : Prop :=
  match c with
  | none => tv = ([], [])
  | some c => ∃ v, constText E c = .ok (tv.1, v) ∧ tv.2 = if c ∈ zeroConsts then [] else xmlEscape v

/-- Both constants, or none, with the same type and value. -/
def SameTexts (E : PrintEnv) : Option Const → Option Const → Prop
  | none, none => True
  | some a, some b => constText E a = constText E b
  | _, _ => False

/-- A row: the index, the constant of the original class and, unless it is the same, that of the modified one. -/
def PoolTableRow (shows : Option Const → Str × Str → Prop) (E : PrintEnv) (i : Nat) (a b : Option Const)
    (row : Str × List Str) : Prop :=
  row.1 = (toString i).toList ∧ ∃ x, shows a x ∧
    ((SameTexts E a b ∧ row.2 = [x.1, x.2]) ∨ (¬ SameTexts E a b ∧ ∃ y, shows b y ∧ row.2 = [x.1, x.2, y.1, y.2]))

/-- The table of pools that are equal: every constant, in order. -/
def ListsAlone (E : PrintEnv) (pool : Pool) (rows : List (Str × List Str)) : Prop :=
  ∃ is : List Nat, is = (List.range' 1 (pool.length - 1)).filter (fun i => (constAt pool i).isSome) ∧
    rows.length = is.length ∧ ∀ (k : Nat) i row, is[k]? = some i → rows[k]? = some row →
      row.1 = (toString i).toList ∧ ∃ x, ShowsAt E (constAt pool i) x ∧ row.2 = [x.1, x.2]

/-- C179 in full: the page has one table of constants. If the pools are equal, it lists every constant in order;
otherwise it has one row for every index, in order, with the constants that the pools have there. -/
def C179_full : Prop := ∀ (E : ClassPageEnv) (o : Opts) (l r : ClassInfo) (p : ClassPage),
  classReportPage E o l r = .ok p → JavaMembers E.print.lim l → JavaMembers E.print.lim r →
  PlainTexts E.print l → PlainTexts E.print r → l.pool[0]? = some none → r.pool[0]? = some none →
  ∃ rows, constReader.read p.html = [rows] ∧
    (poolEq l.pool r.pool = true → ListsAlone E.print l.pool rows) ∧
    (poolEq l.pool r.pool = false → rows.length = max l.pool.length r.pool.length - 1 ∧
      ∀ (k : Nat) row, rows[k]? = some row →
        PoolTableRow (ShowsAt E.print) E.print (k + 1) (constAt l.pool (k + 1)) (constAt r.pool (k + 1)) row)

/-! ### The table on the page -/

def PoolRow.cells (r : PoolRow) : Str × List Str :=
  (natText r.index, [r.left.1, xmlEscape r.left.2] ++ match r.right with
    | none => []
    | some q => [q.1, xmlEscape q.2])

theorem const_tag (s : String) (t : Str) (st : TabState) :
    constReader.frag (tg s) (t, st) = ([], constReader.step (s.toList, t) st) := rfl

theorem const_text (s : String) (st : TabState) : constReader.frag (txt s) ([], st) = (s.toList, st) := by
  simp [TabReader.frag, txt]

theorem const_raw (s : Str) (st : TabState) : constReader.frag (.raw s) ([], st) = (s, st) := by
  simp [TabReader.frag]

theorem const_esc (s : Str) (st : TabState) : constReader.frag (.esc s) ([], st) = (xmlEscape s, st) := by
  simp [TabReader.frag]

theorem const_other {s : String} (h : (constReader.start s.toList || constReader.head s.toList ||
    constReader.cell s.toList || decide (s = "/table")) = false) (t : Str) (st : TabState) :
    constReader.step (s.toList, t) st = st := by
  simp only [Bool.or_eq_false_iff, decide_eq_false_iff_not] at h
  unfold TabReader.step
  simp only [h.1.1.1, h.1.1.2, h.1.2, Bool.false_eq_true, if_false]
  rw [if_neg (fun e => h.2 (String.toList_inj.1 e))]

theorem const_cell {s : String} (h : (!constReader.start s.toList && !constReader.head s.toList &&
    constReader.cell s.toList) = true) (t : Str) (st : TabState) :
    constReader.step (s.toList, t) st = { st with cells := t :: st.cells } := by
  simp only [Bool.and_eq_true, Bool.not_eq_true'] at h
  unfold TabReader.step
  simp only [h.1.1, h.1.2, h.2, Bool.false_eq_true, if_false, if_true]
  rfl

theorem const_head (t : Str) (st : TabState) :
    constReader.step (constHeadTag.toList, t) st = { st with cells := [], rows := (t, st.cells) :: st.rows } := by
  have h1 : constReader.start constHeadTag.toList = false := by decide +kernel
  have h2 : constReader.head constHeadTag.toList = true := by decide +kernel
  unfold TabReader.step
  simp only [h1, h2, Bool.false_eq_true, if_false, if_true]

theorem const_stop (t : Str) (st : TabState) :
    constReader.step ("/table".toList, t) st = ⟨[], [], st.tables⟩ := by
  have h1 : constReader.start "/table".toList = false := by decide +kernel
  have h2 : constReader.head "/table".toList = false := by decide +kernel
  have h3 : constReader.cell "/table".toList = false := by decide +kernel
  unfold TabReader.step
  simp only [h1, h2, h3, Bool.false_eq_true, if_false, if_true]

theorem const_start {s : String} (h : constReader.start s.toList = true) (t : Str) (st : TabState) :
    constReader.step (s.toList, t) st = ⟨[], [], st.rows :: st.tables⟩ := by
  unfold TabReader.step
  simp only [h, if_true]

theorem const_tr (t : Str) (st : TabState) : constReader.step ("tr".toList, t) st = st := const_other (by decide +kernel) t st
theorem const_tr' (t : Str) (st : TabState) : constReader.step ("/tr".toList, t) st = st := const_other (by decide +kernel) t st
theorem const_td' (t : Str) (st : TabState) : constReader.step ("/td".toList, t) st = st := const_other (by decide +kernel) t st
theorem const_th (t : Str) (st : TabState) : constReader.step ("th".toList, t) st = st := const_other (by decide +kernel) t st
theorem const_th' (t : Str) (st : TabState) : constReader.step ("/th".toList, t) st = st := const_other (by decide +kernel) t st
theorem const_thead (t : Str) (st : TabState) : constReader.step ("thead".toList, t) st = st := const_other (by decide +kernel) t st
theorem const_thead' (t : Str) (st : TabState) : constReader.step ("/thead".toList, t) st = st := const_other (by decide +kernel) t st
theorem const_div' (t : Str) (st : TabState) : constReader.step ("/div".toList, t) st = st := const_other (by decide +kernel) t st
theorem const_te (t : Str) (st : TabState) : constReader.step ("td class=\"const-type empty\"".toList, t) st = st :=
  const_other (by decide +kernel) t st
theorem const_ve (t : Str) (st : TabState) : constReader.step ("td class=\"const-value empty\"".toList, t) st = st :=
  const_other (by decide +kernel) t st
theorem const_type (t : Str) (st : TabState) :
    constReader.step ("td class=\"const-type\"".toList, t) st = { st with cells := t :: st.cells } :=
  const_cell (by decide +kernel) t st
theorem const_value (t : Str) (st : TabState) :
    constReader.step ("td class=\"const-value\"".toList, t) st = { st with cells := t :: st.cells } :=
  const_cell (by decide +kernel) t st
theorem const_typec (t : Str) (st : TabState) :
    constReader.step ("td class=\"const-type is_changed\"".toList, t) st = { st with cells := t :: st.cells } :=
  const_cell (by decide +kernel) t st
theorem const_valuec (t : Str) (st : TabState) :
    constReader.step ("td class=\"const-value is_changed\"".toList, t) st = { st with cells := t :: st.cells } :=
  const_cell (by decide +kernel) t st
theorem const_index (t : Str) (st : TabState) :
    constReader.step ("td class=\"const-index\"".toList, t) st = { st with cells := [], rows := (t, st.cells) :: st.rows } :=
  const_head t st

theorem flatMap_run {α : Type} {f : α → List Frag} {g : α → Str × List Str} (l : List α)
    (h : ∀ x ∈ l, ∀ t rows ts, ∃ t', (f x).foldr constReader.frag (t, ⟨[], rows, ts⟩) = (t', ⟨[], g x :: rows, ts⟩))
    (t : Str) (rows : List (Str × List Str)) (ts : List (List (Str × List Str))) :
    ∃ t', (l.flatMap f).foldr constReader.frag (t, ⟨[], rows, ts⟩) = (t', ⟨[], l.map g ++ rows, ts⟩) := by
  induction l with
  | nil => exact ⟨t, rfl⟩
  | cons x l ih =>
    obtain ⟨t1, e1⟩ := ih fun y hy => h y (by simp [hy])
    obtain ⟨t2, e2⟩ := h x (by simp) t1 (l.map g ++ rows) ts
    exact ⟨t2, by rw [List.flatMap_cons, List.foldr_append, e1, e2]; rfl⟩

theorem dualRow_run (r : PoolRow) (t : Str) (rows : List (Str × List Str)) (ts : List (List (Str × List Str))) :
    ∃ t', (poolDualRow r).foldr constReader.frag (t, ⟨[], rows, ts⟩) = (t', ⟨[], r.cells :: rows, ts⟩) := by
  refine ⟨[], ?_⟩
  unfold poolDualRow PoolRow.cells
  cases r.right with
  | none =>
    simp only [List.cons_append, List.nil_append, List.foldr_cons, List.foldr_nil, const_tag, const_raw, const_esc,
      const_tr, const_td', const_te, const_ve, const_type, const_value, const_index, List.append_nil]
  | some q =>
    simp only [List.cons_append, List.nil_append, List.foldr_cons, List.foldr_nil, const_tag, const_raw, const_esc,
      const_tr, const_tr', const_td', const_type, const_value, const_typec, const_valuec, const_index]

theorem singleRow_run (r : PoolRow) (hr : r.right = none) (t : Str) (rows : List (Str × List Str))
    (ts : List (List (Str × List Str))) :
    ∃ t', ([tg "tr", tg "td class=\"const-index\"", .raw (natText r.index), tg "/td",
      tg "td class=\"const-type\"", .raw r.left.1, tg "/td",
      tg "td class=\"const-value\"", .esc r.left.2, tg "/td", tg "/tr"] : List Frag).foldr constReader.frag (t, ⟨[], rows, ts⟩) =
      (t', ⟨[], r.cells :: rows, ts⟩) := by
  refine ⟨[], ?_⟩
  unfold PoolRow.cells
  rw [hr]
  simp only [List.cons_append, List.nil_append, List.foldr_cons, List.foldr_nil, const_tag, const_raw, const_esc,
    const_tr, const_tr', const_td', const_type, const_value, const_index]

theorem tabs_dual (rows : List PoolRow) : HasTabs constReader (poolDual rows) [rows.map PoolRow.cells] := ⟨fun t st => by
  unfold poolDual
  have hs : [tg "/table"].foldr constReader.frag (t, st) = ([], ⟨[], [], st.tables⟩) := by
    rw [List.foldr_cons, List.foldr_nil, const_tag, const_stop]
  rw [List.foldr_append, List.foldr_append, hs]
  obtain ⟨t1, e1⟩ := flatMap_run rows (fun x _ => dualRow_run x) [] [] st.tables
  rw [e1]
  simp only [List.foldr_cons, List.foldr_nil, const_tag, const_text, const_tr, const_tr', const_th, const_th',
    const_thead, const_thead', const_start (s := "table class=\"dual-constant-pool\"") (by decide +kernel),
    List.append_nil]
  rfl⟩

theorem tabs_single (rows : List PoolRow) (h : ∀ r ∈ rows, r.right = none) :
    HasTabs constReader (poolSingle rows) [rows.map PoolRow.cells] := ⟨fun t st => by
  unfold poolSingle
  have hs : [tg "/table"].foldr constReader.frag (t, st) = ([], ⟨[], [], st.tables⟩) := by
    rw [List.foldr_cons, List.foldr_nil, const_tag, const_stop]
  rw [List.foldr_append, List.foldr_append, hs]
  obtain ⟨t1, e1⟩ := flatMap_run rows (fun x hx => singleRow_run x (h x hx)) [] [] st.tables
  rw [e1]
  simp only [List.foldr_cons, List.foldr_nil, const_tag, const_text, const_tr, const_tr', const_th, const_th',
    const_thead, const_thead', const_start (s := "table class=\"constant-pool\"") (by decide +kernel),
    List.append_nil]
  rfl⟩

theorem tabs_pool (p : PoolView) (h : p.verdict.changed = false → ∀ r ∈ p.rows, r.right = none) :
    HasTabs constReader (poolFrags p) [p.rows.map PoolRow.cells] := by
  unfold poolFrags
  refine HasTabs.div ?_
  have : HasTabs constReader (if p.verdict.changed then poolDual p.rows else poolSingle p.rows) [p.rows.map PoolRow.cells] := by
    cases e : p.verdict.changed with
    | true => exact tabs_dual _
    | false => exact tabs_single _ (h e)
  have h2 := ((HasTabs.plain ((noStart_heading "ClassConstantPoolChange" "Constant pool" p.desc).append
    (show NoStart constReader [tg "div class=\"details\"", tg "div class=\"lrdata\""] by nostart))).append this).append
    (.plain (show NoStart constReader [tg "/div", tg "/div"] by nostart))
  rw [List.nil_append, List.append_nil] at h2
  exact h2

theorem const_left : constReader.start tabTag.toList = false := by decide +kernel
theorem const_annos : constReader.start "table class=\"annotations\"".toList = false := by decide +kernel
theorem const_code : constReader.start "table".toList = false := by decide +kernel

theorem noConst_member (k : MemberView) : NoStart constReader (memberFrags k) := by
  have hl := @noStart_left constReader const_left
  have ha := @noStart_anno constReader const_annos
  cases k with
  | field v name subs a b =>
    exact .div (((show NoStart constReader [tg "h3", .esc name, tg "/h3"] by nostart).append (hl ..)).append
      (.collect ((ha ..).append (ha ..))))
  | method v head subs a b c =>
    exact .div (((show NoStart constReader [tg "h3", .esc head, tg "/h3"] by nostart).append (hl ..)).append
      (.collect (((ha ..).append (ha ..)).append (noStart_code const_code c))))
  | methodAdded v head subs =>
    refine .div ?_
    have h := const_left
    have := noStart_subRows (R := constReader) lonelyRows subs
    exact ((show NoStart constReader [tg "h3", .esc head, tg "/h3", tg "div class=\"description\"", txt "Method Added",
      tg "/div\n<div class=\"details\"", tg "div class=\"lrdata\"", .tag tabTag.toList] by nostart).append this).append
      (by nostart)
  | methodRemoved v head subs =>
    exact .div ((show NoStart constReader [tg "h3", .esc head, tg "/h3",
      tg "div class=\"description\"", txt "Method Removed", tg "/div"] by nostart).append (hl ..))
  | fieldAdded v => exact .div (by unfold plainDescription; nostart)
  | fieldRemoved v => exact .div (by unfold plainDescription; nostart)

theorem noConst_members (type label : String) (m : MembersView) : NoStart constReader (membersFrags type label m) := by
  unfold membersFrags
  refine .div ((noStart_heading ..).append ?_)
  split
  · exact .nil
  · exact .collect (.flatMap fun k _ => noConst_member k)

theorem constsOn_page (p : ClassPage) (hp : p.pool.verdict.changed = false → ∀ r ∈ p.pool.rows, r.right = none)
    (h : ∀ t ∈ p.raws, '<' ∉ t) : constReader.read p.html = [p.pool.rows.map PoolRow.cells] := by
  rw [reads_page const_left (.plain (noStart_anno const_annos ..)) (.plain (noStart_anno const_annos ..))
    (tabs_pool p.pool hp) (.plain (noConst_members ..)) (.plain (noConst_members ..)) h]
  rfl


/-! ### From the pools -/

theorem pool_leaf {T : Texts} {l r : ClassInfo} {c : Change Opts} (h : (poolChange T l r).check = .ok c) :
    c.isChange = !poolEq l.pool r.pool := by
  unfold poolChange checkImpl at h
  cases hb : poolEq l.pool r.pool with
  | true =>
    simp only [hb, Bool.not_true, Change.check, Except.ok.injEq] at h
    subst h
    rfl
  | false =>
    simp only [hb, Bool.not_false] at h
    cases hx : prettyConstants l.pool with
    | error e => simp [hx, Change.check, Except.map] at h
    | ok x =>
      cases hy : prettyConstants r.pool with
      | error e => simp [hx, hy, Change.check, Except.map] at h
      | ok y =>
        simp only [hx, hy, Change.check, Except.map, Except.ok.injEq] at h
        subst h
        rfl

theorem pool_made {E : ClassPageEnv} {o : Opts} {l r : ClassInfo} {p : ClassPage}
    (h : classReportPage E o l r = .ok p) :
    ∃ c, (poolChange E.texts l r).check = .ok c ∧ poolViewOf E o l.pool r.pool c = .ok p.pool := by
  unfold classReportPage at h
  split at h
  · simp at h
  · rename_i c hc
    unfold javaClassChange at hc
    rw [Change.check] at hc
    split at hc
    · simp at hc
    · rename_i kids b hk
      simp only [Except.ok.injEq] at hc
      subst hc
      rw [Change.collect] at h
      unfold classChildren at hk
      obtain ⟨c1, k1, _, rfl, h1, hk⟩ := checkAll_step hk
      obtain ⟨c2, k2, _, rfl, h2, hk⟩ := checkAll_step hk
      obtain ⟨c3, k3, _, rfl, h3, hk⟩ := checkAll_step hk
      obtain ⟨c4, k4, _, rfl, h4, hk⟩ := checkAll_step hk
      obtain ⟨c5, k5, _, rfl, h5, hk⟩ := checkAll_step hk
      obtain ⟨c6, k6, _, rfl, h6, hk⟩ := checkAll_step hk
      obtain ⟨rfl, _⟩ := checkAll_done hk
      simp only at h
      obtain ⟨_, _, h⟩ := except_bind_ok h
      obtain ⟨_, e1, h⟩ := except_bind_ok h
      obtain ⟨_, e2, h⟩ := except_bind_ok h
      obtain ⟨_, e3, h⟩ := except_bind_ok h
      obtain ⟨_, e4, h⟩ := except_bind_ok h
      obtain ⟨_, e5, h⟩ := except_bind_ok h
      obtain ⟨_, e6, h⟩ := except_bind_ok h
      simp only [Except.ok.injEq] at h
      subst h
      exact ⟨c4, h4, e4⟩

theorem alone_rows {E : PrintEnv} {pool : Pool} (k : Nat) : ∀ (n : Nat) (rows : List (Nat × Str × Str)),
    n + k = pool.length → poolTexts E n (pool.drop n) = .ok rows →
    rows.length = ((List.range' n k).filter fun i => (constAt pool i).isSome).length ∧
    ∀ (j : Nat) i row, ((List.range' n k).filter fun i => (constAt pool i).isSome)[j]? = some i →
      rows[j]? = some row → row.1 = i ∧ ∃ c, constAt pool i = some c ∧ constText E c = .ok row.2 := by
  induction k with
  | zero =>
    intro n rows hn h
    rw [List.drop_eq_nil_of_le (by omega), poolTexts, Except.ok.injEq] at h
    subst h
    simp
  | succ k ih =>
    intro n rows hn h
    have hlt : n < pool.length := by omega
    rw [List.drop_eq_getElem_cons hlt] at h
    rw [List.range'_succ, List.filter_cons]
    have hat : constAt pool n = pool[n] := by simp [constAt, List.getElem?_eq_getElem hlt]
    rw [hat]
    cases hc : pool[n] with
    | none =>
      rw [hc, poolTexts] at h
      simp only [Option.isSome_none, Bool.false_eq_true, if_false]
      exact ih (n + 1) rows (by omega) h
    | some c =>
      rw [hc, poolTexts] at h
      split at h
      · simp at h
      · rename_i q hq
        split at h
        · simp at h
        · rename_i qs hqs
          simp only [Except.ok.injEq] at h
          subst h
          obtain ⟨h1, h2⟩ := ih (n + 1) qs (by omega) hqs
          simp only [Option.isSome_some, if_true]
          refine ⟨by simp [h1], fun j i row hi hr => ?_⟩
          cases j with
          | zero =>
            simp only [List.getElem?_cons_zero, Option.some.injEq] at hi hr
            subst hi hr
            exact ⟨rfl, c, by rw [hat, hc], hq⟩
          | succ j =>
            simp only [List.getElem?_cons_succ] at hi hr
            exact h2 j i row hi hr

theorem falsy_blank {E : PrintEnv} {c : Const} {t v : Str} (h : constText E c = .ok (t, v)) :
    xmlEscape (if falsyConst c then [] else v) = if c ∈ zeroConsts then [] else xmlEscape v := by
  have hn : xmlEscape [] = [] := rfl
  cases c <;> simp only [falsyConst, zeroConsts, List.mem_cons, List.not_mem_nil, or_false, reduceCtorEq,
    Bool.false_eq_true, if_false, false_or, decide_eq_true_eq, Const.integer.injEq, Const.module.injEq, Const.package.injEq]
  case utf8 s =>
    simp only [constText, Except.ok.injEq, Prod.mk.injEq] at h
    rw [← h.2]
    cases s <;> simp [reprBody, xmlEscape]
  all_goals
    split <;> simp_all

theorem cell_shows {E : ClassPageEnv} {x : PrettyCell} {q : Str × Str} (h : plainConstCell E x = .ok q) :
    ShowsButZero E.print (x.map Prod.snd) (q.1, xmlEscape q.2) := by
  unfold plainConstCell at h
  split at h
  · simp only [Except.ok.injEq] at h
    subst h
    rfl
  · split at h
    · simp at h
    · rename_i n c t v ht
      simp only [Except.ok.injEq] at h
      subst h
      exact ⟨v, ht, falsy_blank ht⟩

theorem key_same {E : PrintEnv} {x y : PrettyCell} {a b : Option (Str × Str)} (ha : cellKey E x = .ok a)
    (hb : cellKey E y = .ok b) : SameTexts E (x.map Prod.snd) (y.map Prod.snd) ↔ a = b := by
  cases x with
  | none =>
    simp only [cellKey, Except.ok.injEq] at ha
    subst ha
    cases y with
    | none =>
      simp only [cellKey, Except.ok.injEq] at hb
      subst hb
      simp [SameTexts]
    | some d =>
      simp only [cellKey] at hb
      cases hd : constText E d.2 with
      | error e => simp [hd, Except.map] at hb
      | ok v =>
        simp only [hd, Except.map, Except.ok.injEq] at hb
        subst hb
        simp [SameTexts]
  | some c =>
    simp only [cellKey] at ha
    cases hc : constText E c.2 with
    | error e => simp [hc, Except.map] at ha
    | ok v =>
      simp only [hc, Except.map, Except.ok.injEq] at ha
      subst ha
      cases y with
      | none =>
        simp only [cellKey, Except.ok.injEq] at hb
        subst hb
        simp [SameTexts]
      | some d =>
        simp only [cellKey] at hb
        cases hd : constText E d.2 with
        | error e => simp [hd, Except.map] at hb
        | ok w =>
          simp only [hd, Except.map, Except.ok.injEq] at hb
          subst hb
          simp [SameTexts, hc, hd]

theorem row_shows {E : ClassPageEnv} {m : Nat × PrettyCell × PrettyCell} {row : PoolRow}
    (h : plainConstRow E m = .ok row) :
    PoolTableRow (ShowsButZero E.print) E.print m.1 (m.2.1.map Prod.snd) (m.2.2.map Prod.snd) row.cells := by
  unfold plainConstRow at h
  split at h
  · simp at h
  · simp at h
  · rename_i a b ha hb
    split at h
    · simp at h
    · rename_i left hl
      split at h
      · rename_i hab
        simp only [Except.ok.injEq] at h
        subst h
        exact ⟨rfl, _, cell_shows hl, .inl ⟨(key_same ha hb).2 hab, rfl⟩⟩
      · rename_i hab
        split at h
        · simp at h
        · rename_i right hr
          simp only [Except.ok.injEq] at h
          subst h
          exact ⟨rfl, _, cell_shows hl, .inr ⟨fun e => hab ((key_same ha hb).1 e), _, cell_shows hr, rfl⟩⟩

theorem prettyConst_at {pool : Pool} {i : Nat} {x : PrettyCell} (h : prettyConst pool i = .ok x) :
    x.map Prod.snd = constAt pool i := by
  unfold prettyConst at h
  unfold constAt
  split at h
  · simp at h
  · rename_i e
    simp only [Except.ok.injEq] at h
    subst h
    rw [e]
    rfl
  · rename_i c e
    rw [e]
    cases c <;> simp only [prettyConstTypeVal, Except.map, Except.ok.injEq, reduceCtorEq] at h <;> subst h <;> rfl

theorem mergeBoth_inv {l r : Pool} {n : Nat} : ∀ {s x : Nat} {q}, mergeBoth l r n s x = .ok q →
    (∀ i, s ≤ i → i < s + n → (∃ a, prettyConst l i = .ok a) ∧ ∃ b, prettyConst r i = .ok b) ∧
    q.2 = if n = 0 then x else s + n - 1 := by
  induction n with
  | zero =>
    intro s x q h
    simp only [mergeBoth, Except.ok.injEq] at h
    subst h
    exact ⟨fun i _ _ => by omega, rfl⟩
  | succ n ih =>
    intro s x q h
    rw [mergeBoth] at h
    obtain ⟨a, ha, h⟩ := except_bind_ok h
    obtain ⟨b, hb, h⟩ := except_bind_ok h
    obtain ⟨q', hq, h⟩ := except_bind_ok h
    obtain ⟨h1, h2⟩ := ih hq
    simp only [Except.ok.injEq] at h
    subst h
    refine ⟨fun i hi1 hi2 => ?_, ?_⟩
    · by_cases e : i = s
      · subst e
        exact ⟨⟨a, ha⟩, b, hb⟩
      · exact h1 i (by omega) (by omega)
    · show q'.2 = _
      rw [h2]
      split <;> simp <;> omega

theorem mergeLeft_inv {l : Pool} {n : Nat} : ∀ {s : Nat} {q}, mergeOnlyLeft l n s = .ok q →
    ∀ i, s ≤ i → i < s + n → ∃ a, prettyConst l i = .ok a := by
  induction n with
  | zero => intro s q _ i h1 h2; omega
  | succ n ih =>
    intro s q h i h1 h2
    rw [mergeOnlyLeft] at h
    obtain ⟨a, ha, h⟩ := except_bind_ok h
    obtain ⟨b, hb, h⟩ := except_bind_ok h
    by_cases e : i = s
    · subst e; exact ⟨a, ha⟩
    · exact ih hb i (by omega) (by omega)

theorem mergeRight_inv {r : Pool} {n : Nat} : ∀ {s : Nat} {q}, mergeOnlyRight r n s = .ok q →
    ∀ i, s ≤ i → i < s + n → ∃ a, prettyConst r i = .ok a := by
  induction n with
  | zero => intro s q _ i h1 h2; omega
  | succ n ih =>
    intro s q h i h1 h2
    rw [mergeOnlyRight] at h
    obtain ⟨a, ha, h⟩ := except_bind_ok h
    obtain ⟨b, hb, h⟩ := except_bind_ok h
    by_cases e : i = s
    · subst e; exact ⟨a, ha⟩
    · exact ih hb i (by omega) (by omega)

theorem merge_inv {l r : Pool} {rows} (hl : l[0]? = some none) (hr : r[0]? = some none)
    (h : prettyMergeConstants l r = .ok rows) :
    (∀ i, i < l.length → ∃ a, prettyConst l i = .ok a) ∧ ∀ i, i < r.length → ∃ a, prettyConst r i = .ok a := by
  have z : ∀ {p : Pool}, p[0]? = some none → prettyConst p 0 = .ok none := by
    intro p hp
    rw [prettyConst, hp]
  unfold prettyMergeConstants at h
  obtain ⟨q, hq, h⟩ := except_bind_ok h
  obtain ⟨h1, h2⟩ := mergeBoth_inv hq
  obtain ⟨rs, ix⟩ := q
  simp only at h h2
  have hix : ix ≤ max 1 (min l.length r.length - 1) := by rw [h2]; split <;> omega
  split at h
  · obtain ⟨m, hm, h⟩ := except_bind_ok h
    have h3 := mergeLeft_inv hm
    constructor
    · intro i hi
      by_cases e : i = 0
      · subst e; exact ⟨_, z hl⟩
      by_cases e2 : i < min l.length r.length
      · exact (h1 i (by omega) (by omega)).1
      · exact h3 i (by omega) (by omega)
    · intro i hi
      by_cases e : i = 0
      · subst e; exact ⟨_, z hr⟩
      · exact (h1 i (by omega) (by omega)).2
  · split at h
    · obtain ⟨m, hm, h⟩ := except_bind_ok h
      have h3 := mergeRight_inv hm
      constructor
      · intro i hi
        by_cases e : i = 0
        · subst e; exact ⟨_, z hl⟩
        · exact (h1 i (by omega) (by omega)).1
      · intro i hi
        by_cases e : i = 0
        · subst e; exact ⟨_, z hr⟩
        by_cases e2 : i < min l.length r.length
        · exact (h1 i (by omega) (by omega)).2
        · exact h3 i (by omega) (by omega)
    · constructor
      · intro i hi
        by_cases e : i = 0
        · subst e; exact ⟨_, z hl⟩
        · exact (h1 i (by omega) (by omega)).1
      · intro i hi
        by_cases e : i = 0
        · subst e; exact ⟨_, z hr⟩
        · exact (h1 i (by omega) (by omega)).2

/-- What has a row if the pools differ: the common indices; then, when one pool is longer, its constants from the
last common index on (again that index, when there is one). -/
def dualEntries (l r : Pool) : List (Nat × Option Const × Option Const) :=
  let m := min l.length r.length
  let s := max 1 (m - 1)
  (List.range' 1 (m - 1)).map (fun i => (i, constAt l i, constAt r i)) ++
    (if l.length > r.length then (List.range' s (l.length - s)).map (fun i => (i, constAt l i, none))
     else if r.length > l.length then (List.range' s (r.length - s)).map (fun i => (i, none, constAt r i))
     else [])

theorem merge_entries {l r : Pool} {rows} (hl : l[0]? = some none) (hr : r[0]? = some none)
    (h : prettyMergeConstants l r = .ok rows) :
    rows.map (fun m => (m.1, m.2.1.map Prod.snd, m.2.2.map Prod.snd)) = dualEntries l r := by
  obtain ⟨hl', hr'⟩ := merge_inv hl hr h
  have len : ∀ {p : Pool}, p[0]? = some none → 1 ≤ p.length := by
    intro p hp
    obtain ⟨e, _⟩ := List.getElem?_eq_some_iff.1 hp
    omega
  let lp : Nat → PrettyCell := fun i => match prettyConst l i with | .ok x => x | .error _ => none
  let rp : Nat → PrettyCell := fun i => match prettyConst r i with | .ok x => x | .error _ => none
  have e1 : ∀ i, i < l.length → prettyConst l i = .ok (lp i) := by
    intro i hi
    obtain ⟨a, ha⟩ := hl' i hi
    simp only [lp, ha]
  have e2 : ∀ i, i < r.length → prettyConst r i = .ok (rp i) := by
    intro i hi
    obtain ⟨a, ha⟩ := hr' i hi
    simp only [rp, ha]
  have := C34_exact l r lp rp (len hl) (len hr) e1 e2
  simp only at this
  rw [h, Except.ok.injEq] at this
  rw [this, List.map_append, dualEntries, List.map_map]
  congr 1
  · apply List.map_congr_left
    intro i hi
    have := List.mem_range'_1.1 hi
    simp only [Function.comp_apply]
    rw [prettyConst_at (e1 i (by omega)), prettyConst_at (e2 i (by omega))]
  · split
    · rw [List.map_map]
      apply List.map_congr_left
      intro i hi
      have := List.mem_range'_1.1 hi
      simp only [Function.comp_apply, Option.map_none]
      rw [prettyConst_at (e1 i (by omega))]
    · split
      · rw [List.map_map]
        apply List.map_congr_left
        intro i hi
        have := List.mem_range'_1.1 hi
        simp only [Function.comp_apply, Option.map_none]
        rw [prettyConst_at (e2 i (by omega))]
      · rfl

/-- C179, exactly what the table shows. -/
theorem C179_exact (E : ClassPageEnv) (o : Opts) (l r : ClassInfo) (p : ClassPage)
    (h : classReportPage E o l r = .ok p) (hl : JavaMembers E.print.lim l) (hr : JavaMembers E.print.lim r)
    (hpl : PlainTexts E.print l) (hpr : PlainTexts E.print r) (h0l : l.pool[0]? = some none)
    (h0r : r.pool[0]? = some none) :
    ∃ rows, constReader.read p.html = [rows] ∧
      (poolEq l.pool r.pool = true → ListsAlone E.print l.pool rows) ∧
      (poolEq l.pool r.pool = false → rows.length = (dualEntries l.pool r.pool).length ∧
        ∀ (k : Nat) e row, (dualEntries l.pool r.pool)[k]? = some e → rows[k]? = some row →
          PoolTableRow (ShowsButZero E.print) E.print e.1 e.2.1 e.2.2 row) := by
  obtain ⟨c, hc, hv⟩ := pool_made h
  have hch := pool_leaf hc
  unfold poolViewOf at hv
  cases hb : poolEq l.pool r.pool with
  | false =>
    rw [hb, Bool.not_false] at hch
    rw [if_pos hch] at hv
    split at hv
    · simp at hv
    · rename_i ms hms
      split at hv
      · simp at hv
      · rename_i rs hrs
        simp only [Except.ok.injEq] at hv
        refine ⟨_, constsOn_page p ?_ (page_clean h hl hr hpl hpr), by simp, fun _ => ?_⟩
        · intro hx
          rw [← hv] at hx
          simp [verdictOf, hch] at hx
        · rw [← hv]
          simp only
          obtain ⟨g1, g2⟩ := mapM_getElem hrs
          have he := merge_entries h0l h0r hms
          refine ⟨by rw [List.length_map, g1, ← he, List.length_map], fun k e row hk hrow => ?_⟩
          rw [← he, List.getElem?_map, Option.map_eq_some_iff] at hk
          obtain ⟨m, hm, rfl⟩ := hk
          rw [List.getElem?_map, Option.map_eq_some_iff] at hrow
          obtain ⟨x, hx, rfl⟩ := hrow
          exact row_shows (g2 k m x hm hx)
  | true =>
    rw [hb, Bool.not_true] at hch
    rw [if_neg (by simp [hch])] at hv
    split at hv
    · simp at hv
    · rename_i rs hrs
      simp only [Except.ok.injEq] at hv
      refine ⟨_, constsOn_page p ?_ (page_clean h hl hr hpl hpr), fun _ => ?_, by simp⟩
      · intro _ x hx
        rw [← hv] at hx
        obtain ⟨y, _, rfl⟩ := List.mem_map.1 hx
        rfl
      · rw [← hv]
        simp only
        have len : 1 ≤ l.pool.length := by
          obtain ⟨e, _⟩ := List.getElem?_eq_some_iff.1 h0l
          omega
        obtain ⟨g1, g2⟩ := alone_rows (E := E.print) (pool := l.pool) (l.pool.length - 1) 1 rs (by omega) hrs
        refine ⟨_, rfl, by rw [List.length_map, List.length_map, g1], fun k i row hi hrow => ?_⟩
        rw [List.map_map, List.getElem?_map, Option.map_eq_some_iff] at hrow
        obtain ⟨x, hx, rfl⟩ := hrow
        obtain ⟨q1, d, q2, q3⟩ := g2 k i x hi hx
        refine ⟨by rw [← q1]; rfl, (x.2.1, xmlEscape x.2.2), ?_, rfl⟩
        rw [q2]
        exact ⟨x.2.2, q3, rfl⟩

/-- No constant is the number 0. -/
def NoZeros (pool : Pool) : Prop := ∀ i c, constAt pool i = some c → c ∉ zeroConsts

theorem shows_nonzero {E : PrintEnv} {pool : Pool} (h : NoZeros pool) {i : Nat} {q : Str × Str}
    (hq : ShowsButZero E (constAt pool i) q) : ShowsAt E (constAt pool i) q := by
  cases e : constAt pool i with
  | none => rw [e] at hq; exact hq
  | some c =>
    rw [e] at hq
    obtain ⟨v, h1, h2⟩ := hq
    exact ⟨v, h1, by rw [h2, if_neg (h i c e)]⟩

theorem row_nonzero {E : PrintEnv} {l r : Pool} (hl : NoZeros l) (hr : NoZeros r) {i : Nat} {row : Str × List Str}
    (h : PoolTableRow (ShowsButZero E) E i (constAt l i) (constAt r i) row) :
    PoolTableRow (ShowsAt E) E i (constAt l i) (constAt r i) row := by
  obtain ⟨h1, x, hx, h2⟩ := h
  refine ⟨h1, x, shows_nonzero hl hx, ?_⟩
  rcases h2 with h2 | ⟨h2, y, hy, h3⟩
  · exact .inl h2
  · exact .inr ⟨h2, y, shows_nonzero hr hy, h3⟩

theorem constAt_beyond {pool : Pool} {i : Nat} (h : pool.length ≤ i) : constAt pool i = none := by
  rw [constAt, List.getElem?_eq_none h]
  rfl

theorem entries_all {l r : Pool} {i : Nat} (h1 : 1 ≤ i) (h2 : i < max l.length r.length) :
    (i, constAt l i, constAt r i) ∈ dualEntries l r := by
  unfold dualEntries
  simp only
  by_cases h : i < min l.length r.length
  · exact List.mem_append_left _ (List.mem_map.2 ⟨i, List.mem_range'_1.2 (by omega), rfl⟩)
  · refine List.mem_append_right _ ?_
    split
    · exact List.mem_map.2 ⟨i, List.mem_range'_1.2 (by omega), by rw [constAt_beyond (pool := r) (by omega)]⟩
    · rw [if_pos (by omega)]
      exact List.mem_map.2 ⟨i, List.mem_range'_1.2 (by omega), by rw [constAt_beyond (pool := l) (by omega)]⟩

/-- C179, proved part, for pools without the number 0 among the constants: if they are equal or of the same length,
all of it; otherwise every index has its row (the last common one has another, as if one of the classes did not
have it). -/
theorem C179_partial (E : ClassPageEnv) (o : Opts) (l r : ClassInfo) (p : ClassPage)
    (h : classReportPage E o l r = .ok p) (hl : JavaMembers E.print.lim l) (hr : JavaMembers E.print.lim r)
    (hpl : PlainTexts E.print l) (hpr : PlainTexts E.print r) (h0l : l.pool[0]? = some none)
    (h0r : r.pool[0]? = some none) (hzl : NoZeros l.pool) (hzr : NoZeros r.pool) :
    ∃ rows, constReader.read p.html = [rows] ∧
      (poolEq l.pool r.pool = true → ListsAlone E.print l.pool rows) ∧
      (poolEq l.pool r.pool = false → l.pool.length = r.pool.length →
        rows.length = max l.pool.length r.pool.length - 1 ∧
        ∀ (k : Nat) row, rows[k]? = some row →
          PoolTableRow (ShowsAt E.print) E.print (k + 1) (constAt l.pool (k + 1)) (constAt r.pool (k + 1)) row) ∧
      (poolEq l.pool r.pool = false → ∀ i, 1 ≤ i → i < max l.pool.length r.pool.length →
        ∃ row ∈ rows, PoolTableRow (ShowsAt E.print) E.print i (constAt l.pool i) (constAt r.pool i) row) := by
  obtain ⟨rows, h1, h2, h3⟩ := C179_exact E o l r p h hl hr hpl hpr h0l h0r
  refine ⟨rows, h1, h2, fun hb hn => ?_, fun hb i hi1 hi2 => ?_⟩
  · obtain ⟨g1, g2⟩ := h3 hb
    have he : dualEntries l.pool r.pool =
        (List.range' 1 (l.pool.length - 1)).map (fun i => (i, constAt l.pool i, constAt r.pool i)) := by
      unfold dualEntries
      simp only
      rw [if_neg (by omega), if_neg (by omega), List.append_nil, ← hn, Nat.min_self]
    rw [he] at g1 g2
    refine ⟨by rw [g1, ← hn]; simp, fun k row hk => ?_⟩
    have hlt : k < l.pool.length - 1 := by
      obtain ⟨e, _⟩ := List.getElem?_eq_some_iff.1 hk
      rw [g1, List.length_map, List.length_range'] at e
      exact e
    refine row_nonzero hzl hzr (g2 k (k + 1, constAt l.pool (k + 1), constAt r.pool (k + 1)) row ?_ hk)
    rw [List.getElem?_map, List.getElem?_range' hlt]
    simp [Nat.add_comm]
  · obtain ⟨g1, g2⟩ := h3 hb
    obtain ⟨k, hk, he⟩ := List.getElem_of_mem (entries_all hi1 hi2)
    have hk2 : k < rows.length := by rw [g1]; exact hk
    have e1 : (dualEntries l.pool r.pool)[k]? = some (i, constAt l.pool i, constAt r.pool i) :=
      List.getElem?_eq_some_iff.2 ⟨hk, he⟩
    have e2 : rows[k]? = some rows[k] := List.getElem?_eq_getElem hk2
    have g := g2 k (i, constAt l.pool i, constAt r.pool i) rows[k] e1 e2
    dsimp only at g
    exact ⟨rows[k], List.getElem_mem hk2, row_nonzero (i := i) hzl hzr g⟩

/-! ### Classes with a constant more -/

/-- `class A extends B {}` -/
def emptyClass (pool : Pool) : ClassInfo := ⟨(52, 0), pool, 0x21, 2, 4, [], [], [], []⟩

def emptyClassPool : Pool := [none, some (.utf8 "A".toList), some (.cls 1), some (.utf8 "B".toList), some (.cls 3)]

theorem members_bare (pool : Pool) : JavaMembers 10 (emptyClass pool) :=
  ⟨by intro m h; simp [emptyClass] at h, by intro m h; simp [emptyClass] at h, List.Pairwise.nil, List.Pairwise.nil⟩

theorem plain_old' : PlainTexts pageEnv.print (emptyClass emptyClassPool) :=
  plain_bare (n := "A".toList) (s := "B".toList) (by decide +kernel) (by decide) (by decide +kernel) (by decide)
    rfl rfl (by decide)

theorem plain_longer : PlainTexts pageEnv.print (emptyClass (emptyClassPool ++ [some (.integer 5)])) :=
  plain_bare (n := "A".toList) (s := "B".toList) (by decide +kernel) (by decide) (by decide +kernel) (by decide)
    rfl rfl (by decide)

/-- The constant 4, which both classes have, is listed twice, the second time as if it were new. -/
theorem longer_rows : (classReportPage pageEnv [] (emptyClass emptyClassPool) (emptyClass (emptyClassPool ++ [some (.integer 5)]))).map
    (fun p => constReader.read p.html) = .ok
    [[("1".toList, ["Utf8".toList, "A".toList]), ("2".toList, ["class".toList, "#1".toList]),
      ("3".toList, ["Utf8".toList, "B".toList]), ("4".toList, ["class".toList, "#3".toList]),
      ("4".toList, ["".toList, "".toList, "class".toList, "#3".toList]),
      ("5".toList, ["".toList, "".toList, "int".toList, "5".toList])]] := by decide +kernel

theorem C179_full_fails : ¬ C179_full := by
  intro h
  cases hp : classReportPage pageEnv [] (emptyClass emptyClassPool) (emptyClass (emptyClassPool ++ [some (.integer 5)])) with
  | error e =>
    have := longer_rows
    rw [hp] at this
    simp [Except.map] at this
  | ok p =>
    have e := longer_rows
    rw [hp] at e
    simp only [Except.map, Except.ok.injEq] at e
    obtain ⟨rows, h1, _, h2⟩ := h pageEnv [] _ _ p hp (members_bare _) (members_bare _) plain_old' plain_longer rfl rfl
    rw [e, List.cons.injEq] at h1
    have h3 := (h2 (by decide +kernel)).1
    rw [← h1.1] at h3
    exact absurd h3 (by decide)

example : (classReportPage pageEnv [] (emptyClass (emptyClassPool ++ [some (.integer 7)]))
    (emptyClass (emptyClassPool ++ [some (.integer 5)]))).map (fun p => (constReader.read p.html).map (List.drop 3)) = .ok
    [[("4".toList, ["class".toList, "#3".toList]), ("5".toList, ["int".toList, "7".toList, "int".toList, "5".toList])]] := by
  decide +kernel

end Javatools
