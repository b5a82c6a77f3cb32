import Verif.Props.ClassPageText
import Verif.Props.ConstListing
/-
C178: the tables of the HTML page of a class comparison show the properties of the classes, fields and methods.
-/
namespace Javatools
open Spec

/-! ### Reading the page -/

/-- What a tag is for a table of properties. -/
inductive TabKind where
  | cell | head | table | stop | other
  deriving DecidableEq, Repr

def tabTag : String := "table class=\"left-headers\""

def tabKind (s : Str) : TabKind :=
  if s = "td".toList ∨ s = "td class=\"is_changed\"".toList then .cell
  else if s = "th".toList ∨ s = "th rowspan=\"2\"".toList then .head
  else if s = tabTag.toList then .table
  else if s = "/table".toList then .stop
  else .other

/-- Cells and rows that have been read (from the end of the page), and the tables. -/
structure TabState where
  cells : List Str := []
  rows : List (Str × List Str) := []
  tables : List (List (Str × List Str)) := []

/-- The cells up to the next header belong to the row of a header, the rows to the table in front of them. -/
def tabStep (p : Str × Str) (st : TabState) : TabState :=
  match tabKind p.1 with
  | .cell => { st with cells := p.2 :: st.cells }
  | .head => { st with cells := [], rows := (p.2, st.cells) :: st.rows }
  | .table => ⟨[], [], st.rows :: st.tables⟩
  | .stop => ⟨[], [], st.tables⟩
  | .other => st

/-- The tables of properties on a page: the header and the cells of each row. -/
def tablesOn (page : Str) : List (List (Str × List Str)) :=
  ((piecesFrom none page).2.foldr tabStep {}).tables

example : tablesOn
    "<table class=\"left-headers\"><tr><th rowspan=\"2\">a</th><td>x</td></tr><tr><td>y</td></tr><tr><th>b</th><td>z</td></tr></table><table><th>c</th></table>".toList =
    [[("a".toList, ["x".toList, "y".toList]), ("b".toList, ["z".toList])]] := by decide +kernel

/-! ### What the tables should be -/

/-- A property: its label, whether its texts are escaped, whether the two versions differ, whether it is shown if
not, its text then, and otherwise the texts of both. -/
structure Property where
  label : String
  escapes : Bool
  differ : Prop
  shows : Res Bool
  alone : Res Str
  left : Res Str
  right : Res Str

/-- A text as it stands in the page. -/
def onPage (escapes : Bool) (s : Str) : Str := if escapes then xmlEscape s else s

/-- The row of a property: both texts if it differs, one if it is shown though it does not, else none. -/
def RowFor (q : Property) (row : Option (Str × List Str)) : Prop :=
  (q.differ ∧ ∃ a b, q.left = .ok a ∧ q.right = .ok b ∧
    row = some (q.label.toList, [onPage q.escapes a, onPage q.escapes b])) ∨
  (¬ q.differ ∧ q.shows = .ok true ∧ ∃ a, q.alone = .ok a ∧ row = some (q.label.toList, [onPage q.escapes a])) ∨
  (¬ q.differ ∧ q.shows = .ok false ∧ row = none)

/-- The rows of a table are those of the properties. -/
inductive TableFor : List Property → List (Str × List Str) → Prop
  | nil : TableFor [] []
  | row {q row qs rows} : RowFor q row → TableFor qs rows → TableFor (q :: qs) (row.toList ++ rows)

/-- Both values exist and are not equal. -/
def Unlike {α : Type} (eq : α → α → Bool) (x y : Res α) : Prop := ∃ a b, x = .ok a ∧ y = .ok b ∧ eq a b = false

/-- A property that is always shown. -/
def always (label : String) (escapes : Bool) (differ : Prop) (left right : Res Str) : Property :=
  ⟨label, escapes, differ, .ok true, left, left, right⟩

/-- The properties of a class. -/
def classProps (lim : Nat) (l r : ClassInfo) : List Property :=
  let sign := fun (c : ClassInfo) => derefAttr c.attribs c.pool lim "Signature"
  [always "Class Name" false (Unlike pyEq (l.getThis lim) (r.getThis lim)) (l.prettyThis lim) (r.prettyThis lim),
    always "Class Flags" false (l.access ≠ r.access) (.ok (flagsText l.access l.prettyAccessFlags))
      (.ok (flagsText r.access r.prettyAccessFlags)),
    always "Extends" false (Unlike pyEq (l.getSuper lim) (r.getSuper lim)) (classText (l.getSuper lim))
      (classText (r.getSuper lim)),
    ⟨"Implements", false, Unlike setEq (l.getInterfaces lim) (r.getInterfaces lim),
      (l.getInterfaces lim).map fun vs => !vs.isEmpty, (interfaceTexts l lim).map commaJoin,
      (interfaceTexts l lim).map commaJoinOr, (interfaceTexts r lim).map commaJoinOr⟩,
    always "Java Version" false (l.version ≠ r.version) (.ok (versionText l)) (.ok (versionText r)),
    always "Java Platform" false (platformFromVersion l.version.1 l.version.2 ≠
      platformFromVersion r.version.1 r.version.2) (.ok (platformText l)) (.ok (platformText r)),
    ⟨"Generics Signature", true, Unlike optEq (sign l) (sign r), (sign l).map optTruthy, (do orNoneText (← sign l)),
      (do orNoneText (← sign l)), (do orNoneText (← sign r))⟩,
    ⟨"Deprecated", false, isDeprecated l.attribs ≠ isDeprecated r.attribs, .ok (isDeprecated l.attribs),
      .ok (pyBoolText (isDeprecated l.attribs)), .ok (pyBoolText (isDeprecated l.attribs)),
      .ok (pyBoolText (isDeprecated r.attribs))⟩]

/-- The properties of a field of both classes. -/
def fieldProps (repr : Option PVal → Str) (lim : Nat) (lp rp : Pool) (l r : Member) : List Property :=
  let sign := fun (m : Member) (p : Pool) => derefAttr m.attribs p lim "Signature"
  let value := fun (m : Member) (p : Pool) => m.derefConstantvalue p lim
  [always "Field Name" true (Unlike pyEq (l.getName lp lim) (r.getName rp lim)) (l.name lp lim) (r.name rp lim),
    always "Field Type" false (Unlike pyEq (l.getDescriptor lp lim) (r.getDescriptor rp lim)) (l.prettyType lp lim)
      (r.prettyType rp lim),
    always "Field Flags" false (l.access ≠ r.access) (.ok (flagsText l.access (l.prettyAccessFlags false)))
      (.ok (flagsText r.access (r.prettyAccessFlags false))),
    ⟨"Generics Signature", true, Unlike optEq (sign l lp) (sign r rp), (sign l lp).map optTruthy,
      (do orNoneText (← sign l lp)), (do orNoneText (← sign l lp)), (do orNoneText (← sign r rp))⟩,
    ⟨"Const Value", true, Unlike optEq (value l lp) (value r rp), (value l lp).map optTruthy,
      (value l lp).map repr, (value l lp).map repr, (value r rp).map repr⟩,
    ⟨"Deprecated", false, isDeprecated l.attribs ≠ isDeprecated r.attribs, .ok (isDeprecated l.attribs),
      .ok (pyBoolText (isDeprecated l.attribs)), .ok (pyBoolText (isDeprecated l.attribs)),
      .ok (pyBoolText (isDeprecated r.attribs))⟩]

/-- The properties of a method of both classes. -/
def methodProps (lim : Nat) (lp rp : Pool) (l r : Member) : List Property :=
  let sign := fun (m : Member) (p : Pool) => derefAttr m.attribs p lim "Signature"
  let abstr := fun (m : Member) (p : Pool) => (m.getCode p lim).map Option.isNone
  let equal := fun {α : Type} [DecidableEq α] (a b : α) => decide (a = b)
  [always "Method Name" true (Unlike pyEq (l.getName lp lim) (r.getName rp lim)) (l.name lp lim) (r.name rp lim),
    always "Return Type" false (Unlike equal (l.typeDescriptor lp lim) (r.typeDescriptor rp lim))
      (l.prettyType lp lim) (r.prettyType rp lim),
    always "Argument Types" false (Unlike equal (l.argTypeDescriptors lp lim) (r.argTypeDescriptors rp lim))
      ((l.prettyArgTypes lp lim).map inParens) ((r.prettyArgTypes rp lim).map inParens),
    always "Method Flags" false (l.access ≠ r.access) (.ok (flagsText l.access (l.prettyAccessFlags false)))
      (.ok (flagsText r.access (r.prettyAccessFlags false))),
    ⟨"Generics Signature", true, Unlike optEq (sign l lp) (sign r rp), (sign l lp).map optTruthy,
      (do orNoneText (← sign l lp)), (do orNoneText (← sign l lp)), (do orNoneText (← sign r rp))⟩,
    ⟨"Exceptions", false, Unlike listEq (l.getExceptions lp lim) (r.getExceptions rp lim),
      (l.getExceptions lp lim).map fun vs => !vs.isEmpty, (l.prettyExceptions lp lim).map inParens,
      (l.prettyExceptions lp lim).map inParens, (r.prettyExceptions rp lim).map inParens⟩,
    ⟨"Abstract", false, Unlike equal (abstr l lp) (abstr r rp), abstr l lp, (abstr l lp).map pyBoolText,
      (abstr l lp).map pyBoolText, (abstr r rp).map pyBoolText⟩,
    ⟨"Deprecated", false, isDeprecated l.attribs ≠ isDeprecated r.attribs, .ok (isDeprecated l.attribs),
      .ok (pyBoolText (isDeprecated l.attribs)), .ok (pyBoolText (isDeprecated l.attribs)),
      .ok (pyBoolText (isDeprecated r.attribs))⟩]

/-- A property of a method that one of the classes has. -/
def single (label : String) (shows : Res Bool) (text : Res Str) : Property :=
  ⟨label, true, False, shows, text, text, text⟩

/-- The properties of a method that one of the classes has. -/
def singleProps (lim : Nat) (p : Pool) (m : Member) : List Property :=
  let sign := derefAttr m.attribs p lim "Signature"
  [single "Method Name" (.ok true) (m.name p lim),
    single "Return Type" (.ok true) (m.prettyType p lim),
    single "Argument Types" (.ok true) ((m.prettyArgTypes p lim).map inParens),
    single "Method Flags" (.ok true) (.ok (flagsText m.access (m.prettyAccessFlags false))),
    single "Generics Signature" (sign.map optTruthy) (do orNoneText (← sign)),
    single "Exceptions" ((m.getExceptions p lim).map fun vs => !vs.isEmpty)
      ((m.prettyExceptions p lim).map commaJoin),
    single "Abstract" ((m.getCode p lim).map Option.isNone) (.ok "True".toList),
    single "Deprecated" (.ok (isDeprecated m.attribs)) (.ok "True".toList)]

/-- The table of a field that both classes have. -/
def FieldTable (E : ClassPageEnv) (l r : ClassInfo) (m : Member) (t : List (Str × List Str)) : Prop :=
  ∃ b ∈ r.fields, SameField E.print.lim l.pool r.pool m b ∧
    TableFor (fieldProps E.repr E.print.lim l.pool r.pool m b) t

/-- The table of a method. -/
def MethodTable (E : ClassPageEnv) (l r : ClassInfo) : Fate → Member → List (Str × List Str) → Prop
  | .added, m, t => TableFor (singleProps E.print.lim r.pool m) t
  | .removed, m, t => TableFor (singleProps E.print.lim l.pool m) t
  | .kept, m, t => ∃ b ∈ r.methods, SameMethod E.print.lim l.pool r.pool m b ∧
      TableFor (methodProps E.print.lim l.pool r.pool m b) t

/-! ### Pieces -/

def tabFrag (f : Frag) (st : Str × TabState) : Str × TabState :=
  match f with
  | .tag s => ([], tabStep (s, st.1) st.2)
  | .esc s => (xmlEscape s ++ st.1, st.2)
  | .raw s => (s ++ st.1, st.2)

theorem tab_render {fs : List Frag} (h : fs.all Frag.clean = true) :
    fs.foldr tabFrag ([], {}) =
      ((piecesFrom none (renderFrags fs)).1, (piecesFrom none (renderFrags fs)).2.foldr tabStep {}) := by
  induction fs with
  | nil => rfl
  | cons f fs ih =>
    simp only [List.all_cons, Bool.and_eq_true] at h
    rw [List.foldr_cons, ih h.2]
    cases f with
    | tag s =>
      have h1 : tagOk false s = true := h.1
      rw [renderFrags, List.cons_append, piecesFrom, if_pos rfl, pieces_tag s false [] _ h1]
      rfl
    | esc s => rw [renderFrags, pieces_text _ _ (C116_inert s).1]; rfl
    | raw s =>
      have h1 : '<' ∉ s := by simpa [Frag.clean] using h.1
      rw [renderFrags, pieces_text _ _ h1]; rfl

/-- These pieces have these tables. -/
structure Tables (fs : List Frag) (ts : List (List (Str × List Str))) : Prop where
  run : ∀ t st, (fs.foldr tabFrag (t, st)).2.tables = ts ++ st.tables

theorem Tables.nil : Tables [] [] := ⟨fun _ _ => rfl⟩

theorem Tables.append {a b : List Frag} {x y : List (List (Str × List Str))} (h1 : Tables a x) (h2 : Tables b y) :
    Tables (a ++ b) (x ++ y) := ⟨fun t st => by
  rw [List.foldr_append, h1.run, h2.run, List.append_assoc]⟩

theorem Tables.flatMap {α : Type} {f : α → List Frag} {g : α → List (List (Str × List Str))} {l : List α}
    (h : ∀ x ∈ l, Tables (f x) (g x)) : Tables (l.flatMap f) (l.flatMap g) := by
  induction l with
  | nil => exact .nil
  | cons a l ih =>
    rw [List.flatMap_cons, List.flatMap_cons]
    exact (h a (by simp)).append (ih fun x hx => h x (by simp [hx]))

theorem tabKind_table {s : Str} (h : tabKind s = .table) : s = tabTag.toList := by
  unfold tabKind at h
  repeat' split at h
  all_goals first | contradiction | assumption

theorem tabStep_keeps {s t : Str} {st : TabState} (h : s ≠ tabTag.toList) : (tabStep (s, t) st).tables = st.tables := by
  have : tabKind s ≠ .table := fun e => h (tabKind_table e)
  unfold tabStep
  dsimp only
  split <;> first | rfl | contradiction

/-- Pieces without such tables. -/
theorem Tables.plain' {fs : List Frag} (h : tg tabTag ∉ fs) : Tables fs [] := by
  induction fs with
  | nil => exact .nil
  | cons f fs ih =>
    simp only [List.mem_cons, not_or] at h
    refine ⟨fun t st => ?_⟩
    rw [List.foldr_cons, List.nil_append]
    have ih' := (ih h.2).run t st
    rw [List.nil_append] at ih'
    cases f with
    | tag s =>
      rw [tabFrag, tabStep_keeps (fun e => h.1 (by rw [e]; rfl)), ih']
    | esc s => exact ih'
    | raw s => exact ih'

theorem divTab_ne (s : String) : tg ("div class=\"" ++ s ++ "\"") ≠ tg tabTag := by
  have hd : "div class=\"".toList = 'd' :: "iv class=\"".toList := by decide +kernel
  have hh : tabTag.toList = 't' :: "able class=\"left-headers\"".toList := by decide +kernel
  unfold tg
  rw [String.toList_append, String.toList_append, hd, hh]
  simp

/-! ### Parts without such tables -/

/-- No table of properties begins here. -/
structure NoTab (fs : List Frag) : Prop where
  none : tg tabTag ∉ fs

theorem NoTab.append {a b : List Frag} (h1 : NoTab a) (h2 : NoTab b) : NoTab (a ++ b) :=
  ⟨fun h => (List.mem_append.1 h).elim h1.none h2.none⟩

theorem NoTab.cons {f : Frag} {fs : List Frag} (h1 : f ≠ tg tabTag) (h2 : NoTab fs) : NoTab (f :: fs) :=
  ⟨fun h => (List.mem_cons.1 h).elim (fun e => h1 e.symm) h2.none⟩

theorem NoTab.nil : NoTab [] := ⟨List.not_mem_nil⟩

theorem NoTab.esc {s : Str} {fs : List Frag} (h : NoTab fs) : NoTab (.esc s :: fs) := h.cons (by simp [tg])

theorem NoTab.raw {s : Str} {fs : List Frag} (h : NoTab fs) : NoTab (.raw s :: fs) := h.cons (by simp [tg])

theorem NoTab.flatMap {α : Type} {f : α → List Frag} {l : List α} (h : ∀ x ∈ l, NoTab (f x)) :
    NoTab (l.flatMap f) :=
  ⟨fun hm => by
    obtain ⟨x, hx, h2⟩ := List.mem_flatMap.1 hm
    exact (h x hx).none h2⟩

theorem tab_ne {s : String} (h : s ≠ tabTag) : tg s ≠ tg tabTag := fun e => by
  unfold tg at e
  simp only [Frag.tag.injEq, String.toList_inj] at e
  exact h e

theorem NoTab.tg {s : String} {fs : List Frag} (hs : s ≠ tabTag) (h : NoTab fs) : NoTab (tg s :: fs) :=
  h.cons (tab_ne hs)

/-- Pieces that are given one by one. -/
macro "notab" : tactic => `(tactic| repeat' (first
  | with_reducible refine NoTab.append ?_ ?_
  | exact NoTab.nil
  | with_reducible exact NoTab.esc NoTab.nil
  | with_reducible refine NoTab.esc ?_
  | with_reducible refine NoTab.raw ?_
  | (unfold txt; with_reducible refine NoTab.raw ?_)
  | with_reducible refine NoTab.tg (by decide) ?_))

theorem NoTab.div {type : String} {v : Verdict} {fs : List Frag} (h : NoTab fs) : NoTab (changeDiv type v fs) := by
  unfold changeDiv
  refine NoTab.append (NoTab.cons (divTab_ne _) h) ?_
  notab

theorem noTab_subRow (spec : RowSpec) (s : Sub) : NoTab (subRow spec s) := by
  unfold subRow RowSpec.text
  split
  · cases spec.escapes <;> cases spec.marks <;> simp only [reduceIte, Bool.false_eq_true] <;> notab
  · split
    · cases spec.escapes <;> cases spec.closes <;> simp only [reduceIte, Bool.false_eq_true] <;> notab
    · notab

theorem noTab_subRows (specs : List RowSpec) (subs : List Sub) : NoTab (subRows specs subs) := by
  induction specs generalizing subs with
  | nil => exact .nil
  | cons spec specs ih =>
    cases subs with
    | nil => exact .nil
    | cons s subs => exact (noTab_subRow spec s).append (ih subs)

theorem noTab_anno (type label : String) (a : AnnoView) : NoTab (annoFrags type label a) := by
  refine NoTab.div (((show NoTab _ by notab).append ?_).append (by notab))
  split
  · refine ((show NoTab _ by notab).append (.flatMap fun r _ => ?_)).append (by notab)
    cases r.changed <;> notab
  · exact ((show NoTab _ by notab).append (.flatMap fun r _ => by notab)).append
      (by notab)

theorem noTab_heading (type label : String) (desc : Str) : NoTab (subHeading type label desc) := by
  have hd : "h2 id=\"".toList = 'h' :: '2' :: " id=\"".toList := by decide +kernel
  have hh : tabTag.toList = 't' :: "able class=\"left-headers\"".toList := by decide +kernel
  have : tg tabTag ≠ tg ("h2 id=\"" ++ type ++ "\"") := by
    unfold tg
    rw [String.toList_append, String.toList_append, hd, hh]
    simp
  unfold subHeading
  refine NoTab.cons this.symm ?_
  notab

theorem noTab_pool (p : PoolView) : NoTab (poolFrags p) := by
  refine NoTab.div ((((noTab_heading ..).append (by notab)).append ?_).append (by notab))
  split
  · refine ((show NoTab _ by notab).append (.flatMap fun r _ => ?_)).append (by notab)
    unfold poolDualRow
    cases r.right <;> dsimp only <;> notab
  · exact ((show NoTab _ by notab).append (.flatMap fun r _ => by notab)).append
      (by notab)

theorem cellTab_ne (c : Cell) : Frag.tag (cellTag c) ≠ tg tabTag := by
  have hd : "td".toList = ['t', 'd'] := by decide +kernel
  have hh : tabTag.toList = 't' :: 'a' :: "ble class=\"left-headers\"".toList := by decide +kernel
  unfold cellTag tg
  rw [hd, hh]
  intro e
  injection e with e
  injection e with _ e
  injection e with e _
  exact absurd e (by decide)

theorem noTab_code (c : CodeView) : NoTab (codeFrags c) := by
  refine NoTab.div (((show NoTab _ by unfold plainDescription; notab).append ?_).append (by notab))
  split
  · notab
  · refine ((show NoTab _ by
      unfold codeHeadDual codeHeadSingle; split <;> notab).append
      (.flatMap fun r _ => ?_)).append (by notab)
    refine NoTab.append (NoTab.tg (by decide) (.flatMap fun x _ => .cons (cellTab_ne x) (by notab))) (by notab)

theorem noTab_collect {fs : List Frag} (h : NoTab fs) : NoTab (collectDiv fs) := by
  unfold collectDiv
  exact (NoTab.tg (by decide) h).append (by notab)

theorem Tables.plain {fs : List Frag} (h : NoTab fs) : Tables fs [] := .plain' h.none

/-- The row of a property in a table. -/
def rowOf (spec : RowSpec) (s : Sub) : Option (Str × List Str) :=
  if s.changed then some (spec.label.toList, [onPage spec.escapes s.left, onPage spec.escapes s.right])
  else if s.shows then some (spec.label.toList, [onPage spec.escapes s.left])
  else none

def rowsOf : List RowSpec → List Sub → List (Str × List Str)
  | spec :: specs, s :: ss => (rowOf spec s).toList ++ rowsOf specs ss
  | _, _ => []

theorem kind_tr : tabKind "tr".toList = .other := by decide +kernel
theorem kind_tr' : tabKind "/tr".toList = .other := by decide +kernel
theorem kind_td : tabKind "td".toList = .cell := by decide +kernel
theorem kind_tdc : tabKind "td class=\"is_changed\"".toList = .cell := by decide +kernel
theorem kind_td' : tabKind "/td".toList = .other := by decide +kernel
theorem kind_th : tabKind "th".toList = .head := by decide +kernel
theorem kind_th2 : tabKind "th rowspan=\"2\"".toList = .head := by decide +kernel
theorem kind_th' : tabKind "/th".toList = .other := by decide +kernel
theorem kind_div' : tabKind "/div".toList = .other := by decide +kernel
theorem kind_stop : tabKind "/table".toList = .stop := by decide +kernel
theorem kind_table : tabKind tabTag.toList = .table := by decide +kernel

theorem text_frag (spec : RowSpec) (v : Str) (st : TabState) :
    tabFrag (spec.text v) ([], st) = (onPage spec.escapes v, st) := by
  unfold RowSpec.text onPage
  cases spec.escapes <;> simp [tabFrag]

theorem label_frag (s : String) (st : TabState) : tabFrag (txt s) ([], st) = (s.toList, st) := by
  simp [tabFrag, txt]

theorem tag_frag (s : String) (t : Str) (st : TabState) : tabFrag (tg s) (t, st) = ([], tabStep (s.toList, t) st) := rfl

theorem subRow_run (spec : RowSpec) (s : Sub) (t : Str) (rows : List (Str × List Str))
    (ts : List (List (Str × List Str))) :
    ∃ t', (subRow spec s).foldr tabFrag (t, ⟨[], rows, ts⟩) = (t', ⟨[], (rowOf spec s).toList ++ rows, ts⟩) := by
  unfold subRow rowOf
  split
  · refine ⟨[], ?_⟩
    have hm : tabKind (if spec.marks then "td class=\"is_changed\"" else "td").toList = .cell := by
      cases spec.marks
      · exact kind_td
      · exact kind_tdc
    simp only [List.foldr_cons, List.foldr_nil, tag_frag, label_frag, text_frag, tabStep, kind_tr, kind_tr', kind_td,
      kind_td', kind_th2, kind_th', hm, Option.toList_some, List.cons_append, List.nil_append]
  · split
    · refine ⟨[], ?_⟩
      cases spec.closes <;>
      simp only [List.foldr_cons, List.foldr_nil, tag_frag, label_frag, text_frag, tabStep, kind_tr,
        kind_tr', kind_td, kind_td', kind_th, kind_th', Option.toList_some, List.cons_append, List.nil_append,
        reduceIte, Bool.false_eq_true]
    · exact ⟨t, rfl⟩

theorem subRows_run (specs : List RowSpec) (subs : List Sub) (t : Str) (ts : List (List (Str × List Str))) :
    ∃ t', (subRows specs subs).foldr tabFrag (t, ⟨[], [], ts⟩) = (t', ⟨[], rowsOf specs subs, ts⟩) := by
  induction specs generalizing subs with
  | nil => exact ⟨t, rfl⟩
  | cons spec specs ih =>
    cases subs with
    | nil => exact ⟨t, rfl⟩
    | cons s subs =>
      obtain ⟨t1, e1⟩ := ih subs
      obtain ⟨t2, e2⟩ := subRow_run spec s t1 (rowsOf specs subs) ts
      exact ⟨t2, by rw [subRows, List.foldr_append, e1, e2, rowsOf]⟩

/-- A table of properties. -/
theorem tables_rows (specs : List RowSpec) (subs : List Sub) :
    Tables (tg tabTag :: subRows specs subs ++ [tg "/table", tg "/div", tg "/div"]) [rowsOf specs subs] := ⟨fun t st => by
  rw [List.foldr_append]
  have : [tg "/table", tg "/div", tg "/div"].foldr tabFrag (t, st) = ([], ⟨[], [], st.tables⟩) := by
    simp only [List.foldr_cons, List.foldr_nil, tag_frag, tabStep, kind_stop, kind_div']
  rw [this, List.foldr_cons]
  obtain ⟨t1, e1⟩ := subRows_run specs subs [] st.tables
  rw [e1, tag_frag, tabStep, kind_table]
  rfl⟩

theorem tables_left (specs : List RowSpec) (subs : List Sub) :
    Tables (leftTable specs subs) [rowsOf specs subs] := by
  have := (Tables.plain (show NoTab [tg "div class=\"details\"", tg "div class=\"lrdata\""] by notab)).append
    (tables_rows specs subs)
  rw [List.nil_append] at this
  exact this

theorem Tables.div {type : String} {v : Verdict} {fs : List Frag} {ts : List (List (Str × List Str))}
    (h : Tables fs ts) : Tables (changeDiv type v fs) ts := by
  have := ((Tables.plain (NoTab.cons (divTab_ne (divClasses type v)) .nil)).append h).append
    (.plain (show NoTab [tg "/div"] by notab))
  rw [List.nil_append, List.append_nil] at this
  exact this

theorem Tables.collect {fs : List Frag} {ts : List (List (Str × List Str))} (h : Tables fs ts) :
    Tables (collectDiv fs) ts := by
  have := ((Tables.plain (show NoTab [tg "div class=\"collect\""] by notab)).append h).append
    (.plain (show NoTab [tg "/div"] by notab))
  rw [List.nil_append, List.append_nil] at this
  exact this

/-- The table of a member. -/
def MemberView.table : MemberView → Option (List (Str × List Str))
  | .field _ _ subs _ _ => some (rowsOf fieldRows subs)
  | .method _ _ subs _ _ _ => some (rowsOf methodRows subs)
  | .methodAdded _ _ subs => some (rowsOf lonelyRows subs)
  | .methodRemoved _ _ subs => some (rowsOf lonelyRows subs)
  | .fieldAdded _ => none
  | .fieldRemoved _ => none

theorem tables_member (k : MemberView) : Tables (memberFrags k) k.table.toList := by
  cases k with
  | field v name subs a b =>
    have := Tables.div (type := "FieldChange") (v := v) (((Tables.plain (show NoTab [tg "h3", .esc name, tg "/h3"] by notab)).append (tables_left fieldRows subs)).append
      (.plain (noTab_collect ((noTab_anno "FieldAnnotationsChange" "Field runtime annotations" a).append
        (noTab_anno "FieldInvisibleAnnotationsChange" "Field runtime invisible annotations" b)))))
    exact this
  | method v head subs a b c =>
    have := Tables.div (type := "MethodChange") (v := v) (((Tables.plain (show NoTab [tg "h3", .esc head, tg "/h3"] by notab)).append (tables_left methodRows subs)).append
      (.plain (noTab_collect (((noTab_anno "MethodAnnotationsChange" "Method runtime annotations" a).append
        (noTab_anno "MethodInvisibleAnnotationsChange" "Method runtime invisible annotations" b)).append (noTab_code c)))))
    exact this
  | methodAdded v head subs =>
    have := Tables.div (type := "MethodAdded") (v := v) ((Tables.plain (show NoTab [tg "h3", .esc head, tg "/h3",
      tg "div class=\"description\"", txt "Method Added", tg "/div\n<div class=\"details\"",
      tg "div class=\"lrdata\""] by notab)).append (tables_rows lonelyRows subs))
    exact this
  | methodRemoved v head subs =>
    have := Tables.div (type := "MethodRemoved") (v := v) ((Tables.plain (show NoTab [tg "h3", .esc head, tg "/h3",
      tg "div class=\"description\"", txt "Method Removed", tg "/div"] by notab)).append (tables_left lonelyRows subs))
    exact this
  | fieldAdded v => exact .plain (.div (by unfold plainDescription; notab))
  | fieldRemoved v => exact .plain (.div (by unfold plainDescription; notab))

theorem tables_members (type label : String) (m : MembersView) :
    Tables (membersFrags type label m) (m.kids.flatMap fun k => k.table.toList) := by
  have := Tables.div (type := type) (v := m.verdict) ((Tables.plain (noTab_heading type label m.desc)).append
    (show Tables (if m.kids.isEmpty then [] else collectDiv (m.kids.flatMap memberFrags))
      (m.kids.flatMap fun k => k.table.toList) from ?_))
  · exact this
  split
  · rename_i h
    rw [List.isEmpty_iff] at h
    rw [h]
    exact .nil
  · exact .collect (.flatMap fun k _ => tables_member k)

/-- The tables of a page. -/
theorem tablesOn_page (p : ClassPage) (h : ∀ t ∈ p.raws, '<' ∉ t) :
    tablesOn p.html = rowsOf classRows p.info :: (p.fields.kids.filterMap MemberView.table ++
      p.methods.kids.filterMap MemberView.table) := by
  unfold ClassPage.html tablesOn
  have hr := congrArg (fun x => x.2.tables) (tab_render (clean_page p h))
  simp only at hr
  rw [← hr]
  have : Tables (classFrags p) (((((([] ++ [rowsOf classRows p.info]) ++ []) ++ []) ++ []) ++
      p.fields.kids.flatMap (fun k => k.table.toList)) ++ p.methods.kids.flatMap (fun k => k.table.toList) ++ []) := by
    unfold classFrags
    refine (((((((Tables.plain (by notab)).append ?_).append (.plain (noTab_anno ..))).append
      (.plain (noTab_anno ..))).append (.plain (noTab_pool _))).append (tables_members ..)).append
      (tables_members ..)).append (.plain (by notab))
    have := Tables.div (type := "ClassInfoChange") (v := p.infoVerdict)
      ((Tables.plain (noTab_heading "ClassInfoChange" "Class information" p.infoDesc)).append (tables_left classRows p.info))
    exact this
  have e := this.run [] {}
  rw [e]
  have hf : ∀ ks : List MemberView, (ks.flatMap fun k => k.table.toList) = ks.filterMap MemberView.table := by
    intro ks
    induction ks with
    | nil => rfl
    | cons k ks ih =>
      rw [List.flatMap_cons, List.filterMap_cons, ih]
      cases k.table <;> rfl
  rw [hf, hf]
  simp

/-! ### The rows -/

/-- What is asked for in turn belongs to the properties. -/
inductive Asks : List RowSpec → List (Res Sub) → List Property → Prop
  | nil : Asks [] [] []
  | cons {spec x q specs xs qs} : (∀ s, x = .ok s → RowFor q (rowOf spec s)) → Asks specs xs qs →
      Asks (spec :: specs) (x :: xs) (q :: qs)

theorem Asks.table {specs : List RowSpec} {xs : List (Res Sub)} {qs : List Property} (h : Asks specs xs qs) :
    ∀ {ss : List Sub}, askSubs xs = .ok ss → TableFor qs (rowsOf specs ss) := by
  induction h with
  | nil =>
    intro ss e
    simp only [askSubs, Except.ok.injEq] at e
    subst e
    exact .nil
  | @cons spec x q specs xs qs h _ ih =>
    intro ss e
    cases x with
    | error e' => simp [askSubs] at e
    | ok s =>
      rw [askSubs] at e
      split at e
      · simp at e
      · rename_i ss' e'
        simp only [Except.ok.injEq] at e
        subst e
        exact .row (h s rfl) (ih e')

theorem ask_row {spec : RowSpec} {b : Bool} {differ : Prop} {shows : Res Bool} {alone left right : Res Str} {s : Sub}
    (hb : b = true ↔ differ) (h : askSub b shows (if b then left else alone) right = .ok s) :
    RowFor ⟨spec.label, spec.escapes, differ, shows, alone, left, right⟩ (rowOf spec s) := by
  unfold askSub at h
  cases b with
  | true =>
    simp only [if_true] at h
    split at h
    · simp at h
    · split at h
      · simp at h
      · simp only [Except.ok.injEq] at h
        subst h
        exact .inl ⟨hb.1 rfl, _, _, rfl, rfl, rfl⟩
  | false =>
    have hn : ¬ differ := fun d => by simpa using hb.2 d
    simp only [Bool.false_eq_true, if_false] at h
    split at h
    · simp at h
    · simp only [Except.ok.injEq] at h
      subst h
      exact .inr (.inr ⟨hn, rfl, rfl⟩)
    · split at h
      · simp at h
      · simp only [Except.ok.injEq] at h
        subst h
        exact .inr (.inl ⟨hn, rfl, _, rfl, rfl⟩)

theorem ask_same {spec : RowSpec} {b : Bool} {differ : Prop} {shows : Res Bool} {left right : Res Str} {s : Sub}
    (hb : b = true ↔ differ) (h : askSub b shows left right = .ok s) :
    RowFor ⟨spec.label, spec.escapes, differ, shows, left, left, right⟩ (rowOf spec s) :=
  ask_row hb (by rw [ite_self]; exact h)

/-- The first child of a name after `check` is that before it. -/
theorem child_checked {name : String} {c : Change Opts} : ∀ {cs kids : List (Change Opts)} {b b' : Bool},
    Change.checkAll cs b = .ok (kids, b') → childNamed name kids = .ok c →
    ∃ c0, cs.find? (fun x => x.hdr.typeName == name) = some c0 ∧ c0.check = .ok c := by
  intro cs
  induction cs with
  | nil =>
    intro kids b b' h hc
    obtain ⟨rfl, _⟩ := checkAll_done h
    simp [childNamed] at hc
  | cons x xs ih =>
    intro kids b b' h hc
    obtain ⟨y, ys, b'', rfl, hy, hs⟩ := checkAll_step h
    have hh := congrArg Hdr.typeName (Change.check_hdr x y hy)
    unfold childNamed at hc
    rw [List.find?_cons] at hc ⊢
    rw [hh] at hc
    cases e : x.hdr.typeName == name with
    | true =>
      rw [e] at hc
      simp only [Except.ok.injEq] at hc
      exact ⟨x, rfl, hc ▸ hy⟩
    | false =>
      rw [e] at hc
      exact ih hs (by unfold childNamed; exact hc)

theorem leaf_differ {name label : String} {ign : IgnoreRule Opts} {d : Res Bool} {x y : Res Str} {c : Change Opts}
    (h : (genericLeaf name label ign d x y).check = .ok c) : d = .ok c.isChange := by
  unfold genericLeaf checkImpl at h
  cases d with
  | error e => simp [Change.check] at h
  | ok b =>
    cases b with
    | false =>
      simp only [Change.check, Except.ok.injEq] at h
      subst h
      rfl
    | true =>
      cases x with
      | error e => simp [Change.check] at h
      | ok x =>
        cases y with
        | error e => simp [Change.check] at h
        | ok y =>
          simp only [Change.check, Except.ok.injEq] at h
          subst h
          rfl

/-- The change of a property is the leaf of its name. -/
theorem child_differ {name label : String} {ign : IgnoreRule Opts} {d : Res Bool} {x y : Res Str}
    {cs kids : List (Change Opts)} {b b' : Bool} {c : Change Opts} (hk : Change.checkAll cs b = .ok (kids, b'))
    (hf : cs.find? (fun x => x.hdr.typeName == name) = some (genericLeaf name label ign d x y))
    (hc : childNamed name kids = .ok c) : d = .ok c.isChange := by
  obtain ⟨c0, h1, h2⟩ := child_checked hk hc
  rw [hf, Option.some.injEq] at h1
  subst h1
  exact leaf_differ h2

theorem differs_unlike {α : Type} {eq : α → α → Bool} {x y : Res α} {b : Bool} (h : differs eq x y = .ok b) :
    b = true ↔ Unlike eq x y := by
  unfold differs at h
  unfold Unlike
  cases x with
  | error e => simp at h
  | ok x =>
    cases y with
    | error e => simp at h
    | ok y =>
      simp only [Except.ok.injEq] at h
      subst h
      simp

theorem not_decide {p : Prop} [Decidable p] {b : Bool} (h : (Except.ok (!decide p) : Res Bool) = .ok b) :
    b = true ↔ ¬ p := by
  simp only [Except.ok.injEq] at h
  subst h
  simp

theorem not_beq {x y b : Bool} (h : (Except.ok (!(x == y)) : Res Bool) = .ok b) : b = true ↔ x ≠ y := by
  simp only [Except.ok.injEq] at h
  subst h
  simp

theorem askChild_row {spec : RowSpec} {name label : String} {ign : IgnoreRule Opts} {d : Res Bool} {x y : Res Str}
    {cs kids : List (Change Opts)} {b b' : Bool} {differ : Prop} {shows : Res Bool} {left right : Res Str}
    (hk : Change.checkAll cs b = .ok (kids, b'))
    (hf : cs.find? (fun x => x.hdr.typeName == name) = some (genericLeaf name label ign d x y))
    (hd : ∀ v, d = .ok v → (v = true ↔ differ)) :
    ∀ s, askChild kids name shows left right = .ok s →
      RowFor ⟨spec.label, spec.escapes, differ, shows, left, left, right⟩ (rowOf spec s) := by
  intro s h
  unfold askChild at h
  split at h
  · simp at h
  · rename_i c hc
    exact ask_same (hd _ (child_differ hk hf hc)) h

macro "findleaf" : tactic => `(tactic| (
  simp only [List.find?_cons, List.find?_nil, genericLeaf, Change.hdr, reduceCtorEq, String.reduceBEq]; rfl))

/-- The table of the class. -/
theorem info_table {E : ClassPageEnv} {l r : ClassInfo} {ss : List Sub}
    {c : Change Opts} (hc : (classInfoChange E.texts E.print.lim l r).check = .ok c)
    (h : infoSubs E l r c.collect = .ok ss) : TableFor (classProps E.print.lim l r) (rowsOf classRows ss) := by
  unfold classInfoChange at hc
  rw [Change.check] at hc
  split at hc
  · simp at hc
  · rename_i kids b hk
    simp only [Except.ok.injEq] at hc
    subst hc
    rw [Change.collect] at h
    unfold infoSubs at h
    refine Asks.table ?_ h
    refine .cons (askChild_row hk (by findleaf) fun _ => differs_unlike) ?_
    refine .cons (askChild_row hk (by findleaf) fun _ => not_decide) ?_
    refine .cons (askChild_row hk (by findleaf) fun _ => differs_unlike) ?_
    refine .cons ?_ ?_
    · intro s hs
      unfold interfacesSub at hs
      split at hs
      · simp at hs
      · rename_i c hc
        refine ask_row (differs_unlike (child_differ hk (by findleaf) hc)) ?_
        cases hi : c.isChange <;> rw [hi] at hs <;> exact hs
    refine .cons (askChild_row hk (by findleaf) fun _ => not_decide) ?_
    refine .cons (askChild_row hk (by findleaf) fun _ => not_decide) ?_
    refine .cons (askChild_row hk (by findleaf) fun _ => differs_unlike) ?_
    exact .cons (askChild_row hk (by findleaf) fun _ => not_beq) .nil

/-- The table of a field that both classes have. -/
theorem field_table {E : ClassPageEnv} {lp rp : Pool} {l r : Member} {kids : List (Change Opts)} {b b' : Bool}
    {ss : List Sub} (hk : Change.checkAll (fieldChildren E.texts E.print.lim E.print.depth lp rp l r) b = .ok (kids, b'))
    (h : fieldSubs E lp rp l r kids = .ok ss) :
    TableFor (fieldProps E.repr E.print.lim lp rp l r) (rowsOf fieldRows ss) := by
  unfold fieldChildren at hk
  unfold fieldSubs at h
  refine Asks.table ?_ h
  refine .cons (askChild_row hk (by findleaf) fun _ => differs_unlike) ?_
  refine .cons (askChild_row hk (by findleaf) fun _ => differs_unlike) ?_
  refine .cons (askChild_row hk (by findleaf) fun _ => not_decide) ?_
  refine .cons (askChild_row hk (by findleaf) fun _ => differs_unlike) ?_
  refine .cons (askChild_row hk (by findleaf) fun _ => differs_unlike) ?_
  exact .cons (askChild_row hk (by findleaf) fun _ => not_beq) .nil

/-- The table of a method that both classes have. -/
theorem method_table {E : ClassPageEnv} {lp rp : Pool} {l r : Member} {kids : List (Change Opts)} {b b' : Bool}
    {ss : List Sub} {lc rc : Option CodeInfo} (hl : l.getCode lp E.print.lim = .ok lc)
    (hr : r.getCode rp E.print.lim = .ok rc)
    (hk : Change.checkAll (methodChildren E.texts E.print.lim E.print.depth lp rp l r) b = .ok (kids, b'))
    (h : methodSubs E lp rp l r kids = .ok ss) :
    TableFor (methodProps E.print.lim lp rp l r) (rowsOf methodRows ss) := by
  unfold methodChildren at hk
  rw [hl, hr] at hk
  simp only at hk
  unfold methodSubs at h
  refine Asks.table ?_ h
  refine .cons (askChild_row hk (by findleaf) fun _ => differs_unlike) ?_
  refine .cons (askChild_row hk (by findleaf) fun _ => differs_unlike) ?_
  refine .cons (askChild_row hk (by findleaf) fun _ => differs_unlike) ?_
  refine .cons (askChild_row hk (by findleaf) fun _ => not_decide) ?_
  refine .cons (askChild_row hk (by findleaf) fun _ => differs_unlike) ?_
  refine .cons (askChild_row hk (by findleaf) fun _ => differs_unlike) ?_
  refine .cons (askChild_row hk (by findleaf) fun v hv => ?_) ?_
  · refine (not_beq hv).trans ?_
    unfold Unlike
    dsimp only
    rw [hl, hr]
    simp only [Except.map, Except.ok.injEq]
    constructor
    · intro hne
      exact ⟨_, _, rfl, rfl, by simpa using hne⟩
    · rintro ⟨x, y, rfl, rfl, hne⟩
      simpa using hne
  exact .cons (askChild_row hk (by findleaf) fun _ => not_beq) .nil

/-- The table of a method that one of the classes has. -/
theorem single_table {E : ClassPageEnv} {m : Member} {p : Pool} {ss : List Sub} (h : lonelySubs E m p = .ok ss) :
    TableFor (singleProps E.print.lim p m) (rowsOf lonelyRows ss) := by
  have row : ∀ {spec : RowSpec} {shows : Res Bool} {text none' : Res Str} {s : Sub}, spec.escapes = true →
      askSub false shows text none' = .ok s → RowFor (single spec.label shows text) (rowOf spec s) := by
    intro spec shows text none' s he h
    rcases ask_same (spec := spec) (differ := False) (by simp) h with h | h | h
    · exact h.1.elim
    · refine .inr (.inl ?_)
      rw [he] at h
      exact h
    · exact .inr (.inr h)
  unfold lonelySubs at h
  refine Asks.table ?_ h
  exact .cons (fun _ => row rfl) (.cons (fun _ => row rfl) (.cons (fun _ => row rfl) (.cons (fun _ => row rfl)
    (.cons (fun _ => row rfl) (.cons (fun _ => row rfl) (.cons (fun _ => row rfl) (.cons (fun _ => row rfl) .nil)))))))

/-! ### The members -/

theorem kept_checked {T : Texts} {what : String} {children : Member → Member → List (Change Opts)} {lp rp : Pool}
    {a b : Member} {c : Change Opts} (h : (deltaChange T what children lp rp (.changed a b)).check = .ok c) :
    ∃ x, Change.checkAll (children a b) false = .ok (c.collect, x) := by
  unfold deltaChange at h
  rw [Change.check] at h
  split at h
  · simp at h
  · rename_i kids x hk
    simp only [Except.ok.injEq] at h
    subst h
    exact ⟨x, hk⟩

theorem fieldView_table {E : ClassPageEnv} {o : Opts} {lp rp : Pool} {d : MemberDelta} {c : Change Opts}
    {v : MemberView} (hc : (deltaChange E.texts "Field" (fieldChildren E.texts E.print.lim E.print.depth lp rp)
      lp rp d).check = .ok c) (h : fieldView E o lp rp d c = .ok v) :
    match d with
    | .changed a b => ∃ t, v.table = some t ∧ TableFor (fieldProps E.repr E.print.lim lp rp a b) t
    | _ => v.table = none := by
  cases d with
  | added m => simp only [fieldView, Except.ok.injEq] at h; subst h; rfl
  | removed m => simp only [fieldView, Except.ok.injEq] at h; subst h; rfl
  | changed a b =>
    obtain ⟨x, hk⟩ := kept_checked hc
    unfold fieldView at h
    obtain ⟨_, e1, h⟩ := except_bind_ok h
    obtain ⟨ss, e2, h⟩ := except_bind_ok h
    obtain ⟨_, _, h⟩ := except_bind_ok h
    obtain ⟨_, e3, h⟩ := except_bind_ok h
    obtain ⟨_, _, h⟩ := except_bind_ok h
    obtain ⟨_, e4, h⟩ := except_bind_ok h
    simp only [Except.ok.injEq] at h
    subst h
    exact ⟨_, rfl, field_table hk e2⟩

theorem methodView_table {E : ClassPageEnv} {o : Opts} {lp rp : Pool} {d : MemberDelta} {c : Change Opts}
    {v : MemberView} (hc : (deltaChange E.texts "Method" (methodChildren E.texts E.print.lim E.print.depth lp rp)
      lp rp d).check = .ok c) (h : methodView E o lp rp d c = .ok v) :
    ∃ t, v.table = some t ∧
    match d with
    | .added m => TableFor (singleProps E.print.lim rp m) t
    | .removed m => TableFor (singleProps E.print.lim lp m) t
    | .changed a b => TableFor (methodProps E.print.lim lp rp a b) t := by
  cases d with
  | added m =>
    unfold methodView at h
    obtain ⟨n, e1, h⟩ := except_bind_ok h
    obtain ⟨_, e2, h⟩ := except_bind_ok h
    simp only [Except.ok.injEq] at h
    subst h
    exact ⟨_, rfl, single_table e2⟩
  | removed m =>
    unfold methodView at h
    obtain ⟨n, e1, h⟩ := except_bind_ok h
    obtain ⟨_, e2, h⟩ := except_bind_ok h
    simp only [Except.ok.injEq] at h
    subst h
    exact ⟨_, rfl, single_table e2⟩
  | changed a b =>
    obtain ⟨x, hk⟩ := kept_checked hc
    unfold methodView at h
    obtain ⟨_, e1, h⟩ := except_bind_ok h
    obtain ⟨_, e2, h⟩ := except_bind_ok h
    obtain ⟨_, _, h⟩ := except_bind_ok h
    obtain ⟨_, _, h⟩ := except_bind_ok h
    obtain ⟨_, _, h⟩ := except_bind_ok h
    obtain ⟨_, _, h⟩ := except_bind_ok h
    obtain ⟨_, e5, h⟩ := except_bind_ok h
    obtain ⟨_, e6, h⟩ := except_bind_ok h
    obtain ⟨_, _, h⟩ := except_bind_ok h
    obtain ⟨_, _, h⟩ := except_bind_ok h
    simp only [Except.ok.injEq] at h
    subst h
    exact ⟨_, rfl, method_table e5 e6 hk e2⟩

/-- Each view is that of a delta and its checked change. -/
theorem views_tables {view : MemberDelta → Change Opts → Res MemberView} {f : MemberDelta → Change Opts} :
    ∀ {ds : List MemberDelta} {kids : List (Change Opts)} {vs : List MemberView} {b b' : Bool},
      Change.checkAll (ds.map f) b = .ok (kids, b') → viewsOf view ds kids = .ok vs →
      ∃ xs : List (MemberDelta × MemberView), xs.map Prod.fst = ds ∧ xs.map Prod.snd = vs ∧
        ∀ x ∈ xs, ∃ c, (f x.1).check = .ok c ∧ view x.1 c = .ok x.2 := by
  intro ds
  induction ds with
  | nil =>
    intro kids vs b b' _ h
    simp only [viewsOf, Except.ok.injEq] at h
    subst h
    exact ⟨[], rfl, rfl, by simp⟩
  | cons d ds ih =>
    intro kids vs b b' hk h
    rw [List.map_cons] at hk
    obtain ⟨c, kids', b'', rfl, hc, hk⟩ := checkAll_step hk
    rw [viewsOf] at h
    split at h
    · simp at h
    · rename_i v hv
      split at h
      · simp at h
      · rename_i vs' hvs
        simp only [Except.ok.injEq] at h
        subst h
        obtain ⟨xs, h1, h2, h3⟩ := ih hk hvs
        refine ⟨(d, v) :: xs, by simp [h1], by simp [h2], ?_⟩
        intro x hx
        rcases List.mem_cons.1 hx with rfl | hx
        · exact ⟨c, hc, hv⟩
        · exact h3 x hx

theorem members_tables {E : ClassPageEnv} {o : Opts} {view : MemberDelta → Change Opts → Res MemberView}
    {name label what : String} {children : Member → Member → List (Change Opts)} {lp rp : Pool}
    {ls rs : List Member} {c : Change Opts} {v : MembersView} {ds : List MemberDelta}
    (hd : sortedDeltas (fun m => m.identifier lp E.print.lim) (fun m => m.identifier rp E.print.lim) ls rs = .ok ds)
    (hc : (membersChange E.texts E.print.lim name label what children lp rp ls rs).check = .ok c)
    (hv : membersViewOf E o view lp rp ls rs c = .ok v) :
    ∃ xs : List (MemberDelta × MemberView), xs.map Prod.fst = ds ∧ xs.map Prod.snd = v.kids ∧
      ∀ x ∈ xs, ∃ c, (deltaChange E.texts what children lp rp x.1).check = .ok c ∧ view x.1 c = .ok x.2 := by
  have h2 := (members_made hd hc hv).2
  unfold membersChange at hc
  simp only [hd] at hc
  rw [Change.check] at hc
  split at hc
  · simp at hc
  · rename_i kids b hk
    simp only [Except.ok.injEq] at hc
    subst hc
    exact views_tables hk h2

theorem info_made {E : ClassPageEnv} {o : Opts} {l r : ClassInfo} {p : ClassPage}
    (h : classReportPage E o l r = .ok p) :
    ∃ c, (classInfoChange E.texts E.print.lim l r).check = .ok c ∧ infoSubs E l r c.collect = .ok p.info := by
  unfold classReportPage at h
  split at h
  · simp at h
  · rename_i c hc
    unfold javaClassChange at hc
    rw [Change.check] at hc
    split at hc
    · simp at hc
    · rename_i kids b hk
      simp only [Except.ok.injEq] at hc
      subst hc
      rw [Change.collect] at h
      unfold classChildren at hk
      obtain ⟨c1, k1, _, rfl, h1, hk⟩ := checkAll_step hk
      obtain ⟨c2, k2, _, rfl, h2, hk⟩ := checkAll_step hk
      obtain ⟨c3, k3, _, rfl, h3, hk⟩ := checkAll_step hk
      obtain ⟨c4, k4, _, rfl, h4, hk⟩ := checkAll_step hk
      obtain ⟨c5, k5, _, rfl, h5, hk⟩ := checkAll_step hk
      obtain ⟨c6, k6, _, rfl, h6, hk⟩ := checkAll_step hk
      obtain ⟨rfl, _⟩ := checkAll_done hk
      simp only at h
      obtain ⟨_, _, h⟩ := except_bind_ok h
      obtain ⟨_, e1, h⟩ := except_bind_ok h
      obtain ⟨_, e2, h⟩ := except_bind_ok h
      obtain ⟨_, e3, h⟩ := except_bind_ok h
      obtain ⟨_, e4, h⟩ := except_bind_ok h
      obtain ⟨_, e5, h⟩ := except_bind_ok h
      obtain ⟨_, e6, h⟩ := except_bind_ok h
      simp only [Except.ok.injEq] at h
      subst h
      exact ⟨c1, h1, e1⟩

/-- C178. The page has a table for the class, one for every field of both classes, and one for every method of
either. The rows are the properties in their order, with the texts of both versions where they differ and the one
text where they do not. -/
theorem C178_rows (E : ClassPageEnv) (o : Opts) (l r : ClassInfo) (p : ClassPage)
    (h : classReportPage E o l r = .ok p) (hl : JavaMembers E.print.lim l) (hr : JavaMembers E.print.lim r)
    (hpl : PlainTexts E.print l) (hpr : PlainTexts E.print r) :
    ∃ (cls : List (Str × List Str)) (fs : List (Member × List (Str × List Str)))
      (ms : List ((Fate × Member) × List (Str × List Str))),
      tablesOn p.html = cls :: (fs.map Prod.snd ++ ms.map Prod.snd) ∧
      TableFor (classProps E.print.lim l r) cls ∧
      (fs.map Prod.fst).Nodup ∧
      (∀ m, m ∈ fs.map Prod.fst ↔ Fate.Of (SameField E.print.lim l.pool r.pool) l.fields r.fields .kept m) ∧
      (∀ x ∈ fs, FieldTable E l r x.1 x.2) ∧
      (ms.map Prod.fst).Nodup ∧
      (∀ f m, (f, m) ∈ ms.map Prod.fst ↔ Fate.Of (SameMethod E.print.lim l.pool r.pool) l.methods r.methods f m) ∧
      ∀ x ∈ ms, MethodTable E l r x.1.1 x.1.2 x.2 := by
  have hm := madeFrom h
  obtain ⟨fds, hfd, hfn, hff, hfc⟩ := fields_fates hl hr
  obtain ⟨mds, hmd, hmn, hmf, hmc⟩ := methods_fates hl hr
  obtain ⟨fc, hfc', hfv⟩ := hm.fields
  obtain ⟨mc, hmc', hmv⟩ := hm.methods
  obtain ⟨fx, f1, f2, f3⟩ := members_tables hfd hfc' hfv
  obtain ⟨mx, m1, m2, m3⟩ := members_tables hmd hmc' hmv
  obtain ⟨ic, i1, i2⟩ := info_made h
  have hfst : ∀ xs : List (MemberDelta × MemberView), (∀ x ∈ xs, ∃ c, (deltaChange E.texts "Field"
      (fieldChildren E.texts E.print.lim E.print.depth l.pool r.pool) l.pool r.pool x.1).check = .ok c ∧
      fieldView E o l.pool r.pool x.1 c = .ok x.2) →
      (xs.filterMap fun x => x.2.table.map fun t => (x.1.fate.2, t)).map Prod.fst =
        ((xs.map fun x => x.1.fate).filter fun y => decide (y.1 = .kept)).map Prod.snd := by
    intro xs
    induction xs with
    | nil => intro _; rfl
    | cons x xs ih =>
      intro hx
      obtain ⟨d, v⟩ := x
      obtain ⟨c, hc, hv⟩ := hx (d, v) (by simp)
      have ht := fieldView_table hc hv
      have ih' := ih fun y hy => hx y (by simp [hy])
      rw [List.filterMap_cons, List.map_cons, List.filter_cons]
      cases d with
      | added m => simp only at ht; simp only [ht, MemberDelta.fate]; exact ih'
      | removed m => simp only at ht; simp only [ht, MemberDelta.fate]; exact ih'
      | changed a b =>
        obtain ⟨t, ht, _⟩ := ht
        simp only [ht, MemberDelta.fate, Option.map_some, List.map_cons, decide_true, if_true]
        exact congrArg (a :: ·) ih'
  have hmst : ∀ xs : List (MemberDelta × MemberView), (∀ x ∈ xs, ∃ c, (deltaChange E.texts "Method"
      (methodChildren E.texts E.print.lim E.print.depth l.pool r.pool) l.pool r.pool x.1).check = .ok c ∧
      methodView E o l.pool r.pool x.1 c = .ok x.2) →
      (xs.filterMap fun x => x.2.table.map fun t => (x.1.fate, t)).map Prod.fst = xs.map fun x => x.1.fate := by
    intro xs
    induction xs with
    | nil => intro _; rfl
    | cons x xs ih =>
      intro hx
      obtain ⟨d, v⟩ := x
      obtain ⟨c, hc, hv⟩ := hx (d, v) (by simp)
      obtain ⟨t, ht, _⟩ := methodView_table hc hv
      have ih' := ih fun y hy => hx y (by simp [hy])
      rw [List.filterMap_cons, List.map_cons]
      simp only [ht, Option.map_some, List.map_cons]
      rw [ih']
  refine ⟨rowsOf classRows p.info,
    fx.filterMap fun x => x.2.table.map fun t => (x.1.fate.2, t),
    mx.filterMap fun x => x.2.table.map fun t => (x.1.fate, t), ?_, info_table i1 i2, ?_, ?_, ?_, ?_, ?_, ?_⟩
  · rw [tablesOn_page p (page_clean h hl hr hpl hpr), ← f2, ← m2, List.filterMap_map, List.filterMap_map,
      List.map_filterMap, List.map_filterMap]
    simp only [Option.map_map]
    have : ∀ o : Option (List (Str × List Str)), o.map (fun t => t) = o := by intro o; cases o <;> rfl
    congr 2
    · refine congrArg (List.filterMap · fx) (funext fun x => (this _).symm)
    · refine congrArg (List.filterMap · mx) (funext fun x => (this _).symm)
  · rw [hfst fx (fun x hx => f3 x hx), List.Nodup, List.pairwise_map]
    rw [show fx.map (fun x => x.1.fate) = fds.map MemberDelta.fate by rw [← f1, List.map_map]; rfl]
    refine List.Pairwise.imp_of_mem ?_ (hfn.filter _)
    intro a b ha hb hne e
    have ha' := (List.mem_filter.1 ha).2
    have hb' := (List.mem_filter.1 hb).2
    simp only [decide_eq_true_eq] at ha' hb'
    exact hne (Prod.ext (ha'.trans hb'.symm) e)
  · intro m
    rw [hfst fx (fun x hx => f3 x hx), ← hff]
    rw [show fx.map (fun x => x.1.fate) = fds.map MemberDelta.fate by rw [← f1, List.map_map]; rfl]
    constructor
    · intro hx
      obtain ⟨⟨f, m'⟩, hx1, rfl⟩ := List.mem_map.1 hx
      obtain ⟨hx, hk⟩ := List.mem_filter.1 hx1
      simp only [decide_eq_true_eq] at hk
      subst hk
      exact hx
    · intro hx
      exact List.mem_map.2 ⟨(.kept, m), List.mem_filter.2 ⟨hx, by simp⟩, rfl⟩
  · intro y hy
    obtain ⟨⟨d, v⟩, hx, e⟩ := List.mem_filterMap.1 hy
    obtain ⟨c, hc, hv⟩ := f3 _ hx
    have ht := fieldView_table hc hv
    have hd : d ∈ fds := f1 ▸ List.mem_map_of_mem (f := Prod.fst) hx
    cases d with
    | added m => simp only at ht; simp [ht] at e
    | removed m => simp only at ht; simp [ht] at e
    | changed a b =>
      obtain ⟨t, ht, htab⟩ := ht
      simp only [ht, Option.map_some, Option.some.injEq] at e
      subst e
      exact ⟨b, (hfc a b hd).2.1, (hfc a b hd).2.2, htab⟩
  · rw [hmst mx (fun x hx => m3 x hx)]
    rw [show mx.map (fun x => x.1.fate) = mds.map MemberDelta.fate by rw [← m1, List.map_map]; rfl]
    exact hmn
  · intro f m
    rw [hmst mx (fun x hx => m3 x hx), ← hmf]
    rw [show mx.map (fun x => x.1.fate) = mds.map MemberDelta.fate by rw [← m1, List.map_map]; rfl]
  · intro y hy
    obtain ⟨⟨d, v⟩, hx, e⟩ := List.mem_filterMap.1 hy
    obtain ⟨c, hc, hv⟩ := m3 _ hx
    obtain ⟨t, ht, htab⟩ := methodView_table hc hv
    have hd : d ∈ mds := m1 ▸ List.mem_map_of_mem (f := Prod.fst) hx
    simp only [ht, Option.map_some, Option.some.injEq] at e
    subst e
    cases d with
    | added m => exact htab
    | removed m => exact htab
    | changed a b => exact ⟨b, (hmc a b hd).2.1, (hmc a b hd).2.2, htab⟩

/-- The old class as an older compiler might have made it. -/
def olderPageClass : ClassInfo := { oldPageClass with version := (51, 0), access := 0x20, fields := [fieldK] }

example : (classReportPage pageEnv [] olderPageClass newPageClass).map (fun p => (tablesOn p.html).take 2) = .ok
    [[("Class Name".toList, ["A".toList]), ("Class Flags".toList, ["0x0020: ".toList, "0x0021: public".toList]),
      ("Extends".toList, ["B".toList]),
      ("Java Version".toList, ["Major: 51, Minor: 0".toList, "Major: 52, Minor: 0".toList]),
      ("Java Platform".toList, ["1.7".toList, "1.8".toList])],
    [("Field Name".toList, ["k".toList]), ("Field Type".toList, ["int".toList]),
      ("Field Flags".toList, ["0x0002: private".toList])]] := by decide +kernel

example : (classReportPage pageEnv [] oldPageClass newPageClass).map (fun p => (tablesOn p.html).length) = .ok 5 := by
  decide +kernel

/-! ### The texts in the rows -/

theorem joinWith_intercalate (sep : Str) (ts : List Str) : joinWith sep ts = List.intercalate sep ts := by
  induction ts with
  | nil => rfl
  | cons a ts ih =>
    cases ts with
    | nil => simp [joinWith, List.intercalate]
    | cons b ts => rw [joinWith, ih]; simp [List.intercalate, List.intersperse]

theorem hexN_length (k n : Nat) : (Change.hexN k n).length = k := by
  induction k generalizing n with
  | zero => rfl
  | succ k ih => simp [Change.hexN, ih]

theorem hexVal_changeDigit : ∀ n < 16, hexVal (Change.hexDigit n) = n := by decide +kernel

theorem hexNum_hexN (k n : Nat) (h : n < 16 ^ k) : hexNum (Change.hexN k n) = n := by
  induction k generalizing n with
  | zero => simp [Change.hexN, hexNum]; omega
  | succ k ih =>
    have h1 : n / 16 < 16 ^ k := by
      rw [Nat.pow_succ] at h
      exact Nat.div_lt_of_lt_mul (by omega)
    have h2 : hexNum (Change.hexN k (n / 16) ++ [Change.hexDigit (n % 16)]) =
        hexNum (Change.hexN k (n / 16)) * 16 + hexVal (Change.hexDigit (n % 16)) := by
      simp [hexNum]
    rw [Change.hexN, h2, ih _ h1, hexVal_changeDigit _ (Nat.mod_lt _ (by decide))]
    omega

/-- The texts in the rows: flags as four hexadecimal digits of their number and their words, a version as its two
numbers in decimal, lists with commas between their members, what is missing as `(None)`, truth as `True` or
`False`. -/
theorem C178_texts :
    (∀ a ws, a < 65536 → ∃ h, flagsText a ws =
      "0x".toList ++ h ++ ": ".toList ++ List.intercalate " ".toList (ws.map String.toList) ∧
      h.length = 4 ∧ hexNum h = a) ∧
    (∀ c : ClassInfo, versionText c = "Major: ".toList ++ (toString c.version.1).toList ++
      ", Minor: ".toList ++ (toString c.version.2).toList) ∧
    (∀ c : ClassInfo, (platformFromVersion c.version.1 c.version.2 = none ∧ platformText c = []) ∨
      ∃ s, platformFromVersion c.version.1 c.version.2 = some s ∧ platformText c = s.toList) ∧
    (∀ ts, commaJoin ts = List.intercalate ", ".toList ts) ∧
    (∀ ts, inParens ts = "(".toList ++ List.intercalate ", ".toList ts ++ ")".toList) ∧
    (∀ ts, commaJoinOr ts = if List.intercalate ", ".toList ts = [] then "(None)".toList
      else List.intercalate ", ".toList ts) ∧
    (∀ s : Str, orNoneText (some (.str s)) = .ok (if s = [] then "(None)".toList else s)) ∧
    orNoneText none = .ok "(None)".toList ∧
    pyBoolText true = "True".toList ∧ pyBoolText false = "False".toList := by
  refine ⟨fun a ws ha => ⟨Change.hexN 4 a, ?_, hexN_length 4 a, hexNum_hexN 4 a ha⟩, fun c => rfl, fun c => ?_,
    fun ts => joinWith_intercalate _ _, fun ts => ?_, fun ts => ?_, fun s => ?_, rfl, rfl, rfl⟩
  · rw [flagsText, keywords, joinWith_intercalate]
  · unfold platformText
    cases platformFromVersion c.version.1 c.version.2 with
    | none => exact .inl ⟨rfl, rfl⟩
    | some s => exact .inr ⟨s, rfl, rfl⟩
  · rw [inParens, commaJoin, joinWith_intercalate]
  · rw [commaJoinOr, commaJoin, joinWith_intercalate]
    cases List.intercalate ", ".toList ts <;> rfl
  · cases s <;> rfl

example : flagsText 0x21 ["public", "super"] = "0x0021: public super".toList ∧
    inParens ["int".toList, "long".toList] = "(int, long)".toList := by decide +kernel

end Javatools
