import Verif.Props.ClassAnnos
/-
C181: the tables of code on the HTML page of a class comparison.
-/
namespace Javatools
open Spec

/-! ### Reading the page -/

/-- The number behind this key; 1 without it. -/
def numberAfter (key : Str) : Str → Nat
  | [] => 1
  | c :: s => if key.isPrefixOf (c :: s) then Nat.ofDigitChars 10 (((c :: s).drop key.length).takeWhile Char.isDigit) 0
      else numberAfter key s

/-- A cell: `td`, perhaps with `colspan` and `rowspan`, and its text. -/
def readCell (s : Str) : Cell :=
  let tag := s.takeWhile (· ≠ '>')
  ⟨numberAfter "colspan=\"".toList tag, numberAfter "rowspan=\"".toList tag, (s.dropWhile (· ≠ '>')).drop 1⟩

example : readCell "td colspan=\"4\" rowspan=\"12\">x".toList = ⟨4, 12, "x".toList⟩ := by decide +kernel
example : readCell "td>5".toList = ⟨1, 1, "5".toList⟩ := by decide +kernel

/-- The tables of code, which are those without a class: rows begin with `<tr>`. -/
def codeReader : TabReader where
  start := fun s => s == "table".toList
  head := fun s => s == "tr".toList
  cell := fun s => s.take 2 == "td".toList || s == "th".toList || s == "th colspan=\"4\"".toList
  keep := fun tag text => tag ++ '>' :: text
  begins := fun s h => by
    rw [beq_iff_eq] at h
    exact ⟨_, h⟩

/-- A table of code: the titles in the second row of its head, and the rows below. -/
def readCode (t : List (Str × List Str)) : List Str × List (List Cell) :=
  (((t.drop 1).take 1).flatMap fun r => r.2.map fun s => (readCell s).text, (t.drop 2).map fun r => r.2.map readCell)

/-- The tables of code on a page. -/
def codeTablesOn (page : Str) : List (List Str × List (List Cell)) := (codeReader.read page).map readCode

example : codeTablesOn "<table><tr><th>Relative</th></tr><tr><th>line</th></tr><tr><td rowspan=\"2\">1</td><td>0</td></tr><tr><td>3</td></tr></table>".toList =
    [(["line".toList], [[⟨1, 2, "1".toList⟩, ⟨1, 1, "0".toList⟩], [⟨1, 1, "3".toList⟩]])] := by decide +kernel

/-! ### What the tables should be -/

/-- The titles of the columns for the line and the instructions of a code. -/
def insnTitles : List Str := ["line".toList, "offset".toList, "opcode".toList, "args".toList]

/-- The table for the codes of the two versions of a method. If the comparison of the codes finds a change or the
bytes are not the same, it has nine columns, in which every instruction of both codes stands beside its relative
line and its line. Otherwise it has five columns with the instructions of the code, and there is none without code. -/
def CodeTableFor (E : ClassPageEnv) (lp rp : Pool) (lc rc : Option CodeInfo) (t : Option (List Str × List (List Cell))) : Prop :=
  ∃ c, (methodCodeChange E.texts E.print.lim lp rp lc rc).check = .ok c ∧
    ((c.isChange = true ∨ (lc.map CodeInfo.code).getD [] ≠ (rc.map CodeInfo.code).getD []) →
      ∃ gl gr order rows shown, groupsOf lc = .ok gl ∧ groupsOf rc = .ok gr ∧
        order.Perm (mergeGroups gl gr) ∧ order.Pairwise (fun a b => a.1 ≤ b.1) ∧
        t = some ("line".toList :: insnTitles ++ insnTitles, rows) ∧ readColumns 9 rows = some shown ∧
        concatRes (fun p => shownGroup p.1 p.2.1 p.2.2) order = .ok shown) ∧
    (c.isChange = false → (lc.map CodeInfo.code).getD [] = (rc.map CodeInfo.code).getD [] →
      (lc = none ∧ t = none) ∨
      ∃ code gs rows shown, lc = some code ∧ code.iterCodeByLines = .ok gs ∧
        t = some ("line".toList :: insnTitles, rows) ∧ readColumns 5 rows = some shown ∧ concatRes shownPlain gs = .ok shown)

/-! ### The tables on the page -/

def rawCell (c : Cell) : Str := cellTag c ++ '>' :: c.text

def rawTitle (s : String) : Str := "th".toList ++ '>' :: s.toList

def rawHead (dual : Bool) : List (Str × List Str) :=
  if dual then [([], [rawTitle "Relative", "th colspan=\"4\"".toList ++ '>' :: "Original".toList,
      "th colspan=\"4\"".toList ++ '>' :: "Modified".toList]),
    ([], [rawTitle "line", rawTitle "line", rawTitle "offset", rawTitle "opcode", rawTitle "args",
      rawTitle "line", rawTitle "offset", rawTitle "opcode", rawTitle "args"])]
  else [([], [rawTitle "Relative", "th colspan=\"4\"".toList ++ '>' :: "Method Code".toList]),
    ([], [rawTitle "line", rawTitle "line", rawTitle "offset", rawTitle "opcode", rawTitle "args"])]

def rawTable (t : Bool × List (List Cell)) : List (Str × List Str) :=
  rawHead t.1 ++ t.2.map fun r => ([], r.map rawCell)

def titles (dual : Bool) : List Str :=
  if dual then "line".toList :: insnTitles ++ insnTitles else "line".toList :: insnTitles

theorem read_head (dual : Bool) (rs : List (Str × List Str)) :
    readCode (rawHead dual ++ rs) = (titles dual, rs.map fun r => r.2.map readCell) := by
  cases dual
  · have h : readCode (rawHead false) = (titles false, []) := by decide +kernel
    exact Prod.ext (Prod.mk.inj h).1 rfl
  · have h : readCode (rawHead true) = (titles true, []) := by decide +kernel
    exact Prod.ext (Prod.mk.inj h).1 rfl

theorem code_tag (s : String) (t : Str) (st : TabState) :
    codeReader.frag (tg s) (t, st) = ([], codeReader.step (s.toList, t) st) := rfl

theorem code_text (s : String) (st : TabState) : codeReader.frag (txt s) ([], st) = (s.toList, st) := by
  simp [TabReader.frag, txt]

theorem code_other {s : String} (h : (codeReader.start s.toList || codeReader.head s.toList ||
    codeReader.cell s.toList || decide (s = "/table")) = false) (t : Str) (st : TabState) :
    codeReader.step (s.toList, t) st = st := by
  simp only [Bool.or_eq_false_iff, decide_eq_false_iff_not] at h
  unfold TabReader.step
  simp only [h.1.1.1, h.1.1.2, h.1.2, Bool.false_eq_true, if_false]
  rw [if_neg (fun e => h.2 (String.toList_inj.1 e))]

theorem code_td (c : Cell) (t : Str) (st : TabState) :
    codeReader.step (cellTag c, t) st = { st with cells := (cellTag c ++ '>' :: t) :: st.cells } := by
  have hd : "td".toList = ['t', 'd'] := by decide +kernel
  obtain ⟨r, hr⟩ : ∃ r, cellTag c = 't' :: 'd' :: r := by
    unfold cellTag
    rw [hd, List.append_assoc]
    exact ⟨_, rfl⟩
  rw [hr]
  have h1 : codeReader.start ('t' :: 'd' :: r) = false := by
    show (('t' :: 'd' :: r) == "table".toList) = false
    rw [beq_eq_false_iff_ne, show "table".toList = ['t', 'a', 'b', 'l', 'e'] by decide +kernel]
    simp
  have h2 : codeReader.head ('t' :: 'd' :: r) = false := by
    show (('t' :: 'd' :: r) == "tr".toList) = false
    rw [beq_eq_false_iff_ne, show "tr".toList = ['t', 'r'] by decide +kernel]
    simp
  have h3 : codeReader.cell ('t' :: 'd' :: r) = true := by
    show (('t' :: 'd' :: r).take 2 == "td".toList || ('t' :: 'd' :: r) == "th".toList ||
      ('t' :: 'd' :: r) == "th colspan=\"4\"".toList) = true
    rw [hd]
    rfl
  unfold TabReader.step
  simp only [h1, h2, h3, Bool.false_eq_true, if_false, if_true]
  rfl

theorem code_head {s : String} (h : (!codeReader.start s.toList && codeReader.head s.toList) = true) (t : Str)
    (st : TabState) :
    codeReader.step (s.toList, t) st = { st with cells := [], rows := (t, st.cells) :: st.rows } := by
  simp only [Bool.and_eq_true, Bool.not_eq_true'] at h
  unfold TabReader.step
  simp only [h.1, h.2, Bool.false_eq_true, if_false, if_true]

theorem code_begin {s : String} (h : codeReader.start s.toList = true) (t : Str) (st : TabState) :
    codeReader.step (s.toList, t) st = ⟨[], [], st.rows :: st.tables⟩ := by
  unfold TabReader.step
  simp only [h, if_true]

theorem code_tr (t : Str) (st : TabState) :
    codeReader.step ("tr".toList, t) st = { st with cells := [], rows := (t, st.cells) :: st.rows } :=
  code_head (by decide +kernel) t st

theorem code_start (t : Str) (st : TabState) :
    codeReader.step ("table".toList, t) st = ⟨[], [], st.rows :: st.tables⟩ := code_begin (by decide +kernel) t st

theorem code_stop (t : Str) (st : TabState) :
    codeReader.step ("/table".toList, t) st = ⟨[], [], st.tables⟩ := by
  have h1 : codeReader.start "/table".toList = false := by decide +kernel
  have h2 : codeReader.head "/table".toList = false := by decide +kernel
  have h3 : codeReader.cell "/table".toList = false := by decide +kernel
  unfold TabReader.step
  simp only [h1, h2, h3, Bool.false_eq_true, if_false, if_true]

theorem code_tr' (t : Str) (st : TabState) : codeReader.step ("/tr".toList, t) st = st := code_other (by decide +kernel) t st
theorem code_td' (t : Str) (st : TabState) : codeReader.step ("/td".toList, t) st = st := code_other (by decide +kernel) t st
theorem code_cell {s : String} (h : (!codeReader.start s.toList && !codeReader.head s.toList &&
    codeReader.cell s.toList) = true) (t : Str) (st : TabState) :
    codeReader.step (s.toList, t) st = { st with cells := (s.toList ++ '>' :: t) :: st.cells } := by
  simp only [Bool.and_eq_true, Bool.not_eq_true'] at h
  unfold TabReader.step
  simp only [h.1.1, h.1.2, h.2, Bool.false_eq_true, if_false, if_true]
  rfl
theorem code_th (t : Str) (st : TabState) :
    codeReader.step ("th".toList, t) st = { st with cells := ("th".toList ++ '>' :: t) :: st.cells } :=
  code_cell (by decide +kernel) t st
theorem code_th4 (t : Str) (st : TabState) :
    codeReader.step ("th colspan=\"4\"".toList, t) st = { st with cells := ("th colspan=\"4\"".toList ++ '>' :: t) :: st.cells } :=
  code_cell (by decide +kernel) t st
theorem code_th' (t : Str) (st : TabState) : codeReader.step ("/th".toList, t) st = st := code_other (by decide +kernel) t st
theorem code_thead (t : Str) (st : TabState) : codeReader.step ("thead".toList, t) st = st := code_other (by decide +kernel) t st
theorem code_thead' (t : Str) (st : TabState) : codeReader.step ("/thead".toList, t) st = st := code_other (by decide +kernel) t st

theorem cells_run (r : List Cell) (rows : List (Str × List Str)) (ts : List (List (Str × List Str))) :
    (r.flatMap fun c => [.tag (cellTag c), .raw c.text, tg "/td"]).foldr codeReader.frag ([], ⟨[], rows, ts⟩) =
      ([], ⟨r.map rawCell, rows, ts⟩) := by
  induction r with
  | nil => rfl
  | cons c r ih =>
    rw [List.flatMap_cons, List.foldr_append, ih]
    simp only [List.foldr_cons, List.foldr_nil, code_tag, code_td']
    show ([], codeReader.step (cellTag c, c.text ++ []) _) = _
    rw [code_td, List.append_nil]
    rfl

theorem codeRows_run (l : List (List Cell)) (ts : List (List (Str × List Str))) :
    (codeFragRows l).foldr codeReader.frag ([], ⟨[], [], ts⟩) =
      ([], ⟨[], l.map fun r => ([], r.map rawCell), ts⟩) := by
  unfold codeFragRows
  induction l with
  | nil => rfl
  | cons r l ih =>
    rw [List.flatMap_cons, List.foldr_append, ih]
    have hs : ∀ rows, [tg "/tr"].foldr codeReader.frag ([], ⟨[], rows, ts⟩) = ([], ⟨[], rows, ts⟩) := by
      intro rows
      rw [List.foldr_cons, List.foldr_nil, code_tag, code_tr']
    rw [List.cons_append, List.foldr_cons, List.foldr_append, hs, cells_run, code_tag, code_tr]
    rfl

theorem tabs_codeTable (dual : Bool) (rows : List (List Cell)) :
    HasTabs codeReader (tg "table" :: (if dual then codeHeadDual else codeHeadSingle) ++
      codeFragRows rows ++ [tg "/table"]) [rawTable (dual, rows)] := ⟨fun t st => by
  have hs : [tg "/table"].foldr codeReader.frag (t, st) = ([], ⟨[], [], st.tables⟩) := by
    rw [List.foldr_cons, List.foldr_nil, code_tag, code_stop]
  rw [List.foldr_append, List.foldr_append, hs, codeRows_run]
  cases dual <;> simp only [codeHeadDual, codeHeadSingle, Bool.false_eq_true, if_true, if_false, List.foldr_cons,
    List.foldr_nil, code_tag, code_text, code_tr, code_tr', code_th, code_th4, code_th', code_thead, code_thead', code_start] <;> rfl⟩

/-- The table with whether it is one of two codes. -/
def CodeView.whole (c : CodeView) : Option (Bool × List (List Cell)) := c.table.map fun t => (c.dual, t)

theorem tabs_code (c : CodeView) : HasTabs codeReader (codeFrags c) (c.whole.toList.map rawTable) := by
  unfold codeFrags
  refine HasTabs.div ?_
  have : HasTabs codeReader (match c.table with
      | none => []
      | some rows => tg "table" :: (if c.dual then codeHeadDual else codeHeadSingle) ++
          codeFragRows rows ++ [tg "/table"]) (c.whole.toList.map rawTable) := by
    unfold CodeView.whole
    cases c.table with
    | none => exact .nil
    | some rows => exact tabs_codeTable c.dual rows
  have h2 := ((HasTabs.plain (show NoStart codeReader (plainDescription "Method Code" ++
      [tg "div class=\"details\"", tg "div class=\"lrdata\""]) by unfold plainDescription; nostart)).append this).append
    (.plain (show NoStart codeReader [tg "/div", tg "/div"] by nostart))
  rw [List.nil_append, List.append_nil] at h2
  exact h2

theorem code_left : codeReader.start tabTag.toList = false := by decide +kernel
theorem code_annos : codeReader.start "table class=\"annotations\"".toList = false := by decide +kernel

/-- The code of a member. -/
def MemberView.codeTable : MemberView → Option (Option (Bool × List (List Cell)))
  | .method _ _ _ _ _ c => some c.whole
  | _ => none

def rawTables (t : Option (Bool × List (List Cell))) : List (List (Str × List Str)) := t.toList.map rawTable

theorem codes_member (k : MemberView) : HasTabs codeReader (memberFrags k) (k.codeTable.toList.flatMap rawTables) := by
  have hl := @noStart_left codeReader code_left
  have ha := @noStart_anno codeReader code_annos
  cases k with
  | field v name subs a b =>
    exact .plain (.div (((show NoStart codeReader [tg "h3", .esc name, tg "/h3"] by nostart).append (hl ..)).append
      (.collect ((ha ..).append (ha ..)))))
  | method v head subs a b c =>
    have := HasTabs.div (type := "MethodChange") (v := v)
      (((HasTabs.plain (show NoStart codeReader [tg "h3", .esc head, tg "/h3"] by nostart)).append
        (.plain (hl methodRows subs))).append
      (.collect ((HasTabs.plain ((ha "MethodAnnotationsChange" "Method runtime annotations" a).append
        (ha "MethodInvisibleAnnotationsChange" "Method runtime invisible annotations" b))).append
        (tabs_code c))))
    rw [List.nil_append, List.nil_append, List.nil_append] at this
    rw [show (MemberView.method v head subs a b c).codeTable.toList.flatMap rawTables = c.whole.toList.map rawTable from by
      simp [MemberView.codeTable, rawTables]]
    exact this
  | methodAdded v head subs =>
    refine .plain (.div ?_)
    have h := code_left
    have := noStart_subRows (R := codeReader) lonelyRows subs
    exact ((show NoStart codeReader [tg "h3", .esc head, tg "/h3", tg "div class=\"description\"", txt "Method Added",
      tg "/div\n<div class=\"details\"", tg "div class=\"lrdata\"", .tag tabTag.toList] by nostart).append this).append
      (by nostart)
  | methodRemoved v head subs =>
    exact .plain (.div ((show NoStart codeReader [tg "h3", .esc head, tg "/h3",
      tg "div class=\"description\"", txt "Method Removed", tg "/div"] by nostart).append (hl ..)))
  | fieldAdded v => exact .plain (.div (by unfold plainDescription; nostart))
  | fieldRemoved v => exact .plain (.div (by unfold plainDescription; nostart))

theorem codes_members (type label : String) (m : MembersView) :
    HasTabs codeReader (membersFrags type label m) (m.kids.flatMap fun k => k.codeTable.toList.flatMap rawTables) := by
  unfold membersFrags
  refine .div ?_
  have : HasTabs codeReader (if m.kids.isEmpty then [] else collectDiv (m.kids.flatMap memberFrags))
      (m.kids.flatMap fun k => k.codeTable.toList.flatMap rawTables) := by
    cases e : m.kids with
    | nil => exact .nil
    | cons k ks => exact .collect (.flatMap fun x _ => codes_member x)
  exact (HasTabs.plain (noStart_heading type label m.desc)).append this

/-! ### Cells -/

theorem takeWhile_digits (n : Nat) (s : Str) : ((natText n ++ '"' :: s).takeWhile Char.isDigit) = natText n := by
  rw [List.takeWhile_append_of_pos (fun c hc => natText_digit hc), List.takeWhile_cons, if_neg (by decide),
    List.append_nil]

theorem number_digits (n : Nat) : Nat.ofDigitChars 10 (natText n) 0 = n := by
  rw [natText_eq, Nat.ofDigitChars_ten_toDigits]

/-- Digits are not the beginning of a key. -/
theorem number_skip {key : Str} (hk : ∃ k r, key = k :: r ∧ k.isDigit = false) (ds s : Str)
    (hd : ∀ c ∈ ds, c.isDigit = true) : numberAfter key (ds ++ s) = numberAfter key s := by
  obtain ⟨k, r, rfl, hk⟩ := hk
  induction ds with
  | nil => rfl
  | cons d ds ih =>
    have hne : k ≠ d := by
      intro e
      rw [e, hd d (by simp)] at hk
      exact absurd hk (by decide)
    rw [List.cons_append, numberAfter, if_neg (by simp [List.isPrefixOf, hne])]
    exact ih fun c hc => hd c (by simp [hc])

theorem number_cols (n : Nat) (s : Str) : numberAfter "colspan=\"".toList
    ("td colspan=\"".toList ++ natText n ++ '"' :: s) = n := by
  rw [show "colspan=\"".toList = ['c', 'o', 'l', 's', 'p', 'a', 'n', '=', '"'] by decide +kernel,
    show "td colspan=\"".toList = ['t', 'd', ' ', 'c', 'o', 'l', 's', 'p', 'a', 'n', '=', '"'] by decide +kernel]
  simp only [List.cons_append, List.nil_append, numberAfter, List.isPrefixOf, List.length_cons, List.length_nil,
    List.drop_succ_cons, List.drop_zero, takeWhile_digits, number_digits]
  rfl

theorem number_rows (n : Nat) (s : Str) : numberAfter "rowspan=\"".toList
    (" rowspan=\"".toList ++ natText n ++ '"' :: s) = n := by
  rw [show "rowspan=\"".toList = ['r', 'o', 'w', 's', 'p', 'a', 'n', '=', '"'] by decide +kernel,
    show " rowspan=\"".toList = [' ', 'r', 'o', 'w', 's', 'p', 'a', 'n', '=', '"'] by decide +kernel]
  simp only [List.cons_append, List.nil_append, numberAfter, List.isPrefixOf, List.length_cons, List.length_nil,
    List.drop_succ_cons, List.drop_zero, takeWhile_digits, number_digits]
  rfl

theorem noCols_rows (n : Nat) : numberAfter "colspan=\"".toList
    ("td".toList ++ " rowspan=\"".toList ++ natText n ++ ['"']) = 1 := by
  rw [show "colspan=\"".toList = ['c', 'o', 'l', 's', 'p', 'a', 'n', '=', '"'] by decide +kernel,
    show "td".toList = ['t', 'd'] by decide +kernel,
    show " rowspan=\"".toList = [' ', 'r', 'o', 'w', 's', 'p', 'a', 'n', '=', '"'] by decide +kernel]
  have h := number_skip (key := ['c', 'o', 'l', 's', 'p', 'a', 'n', '=', '"']) ⟨_, _, rfl, by decide⟩ (natText n) ['"']
    (fun _ hc => natText_digit hc)
  simp only [List.cons_append, List.nil_append]
  iterate 12 rw [numberAfter, if_neg (by simp [List.isPrefixOf])]
  rw [h]
  decide

theorem rows_cols (n : Nat) (s : Str) : numberAfter "rowspan=\"".toList
    ("td colspan=\"".toList ++ natText n ++ '"' :: s) = numberAfter "rowspan=\"".toList s := by
  rw [show "rowspan=\"".toList = ['r', 'o', 'w', 's', 'p', 'a', 'n', '=', '"'] by decide +kernel,
    show "td colspan=\"".toList = ['t', 'd', ' ', 'c', 'o', 'l', 's', 'p', 'a', 'n', '=', '"'] by decide +kernel]
  have h := number_skip (key := ['r', 'o', 'w', 's', 'p', 'a', 'n', '=', '"']) ⟨_, _, rfl, by decide⟩ (natText n) ('"' :: s)
    (fun _ hc => natText_digit hc)
  simp only [List.cons_append, List.nil_append]
  iterate 12 rw [numberAfter, if_neg (by simp [List.isPrefixOf])]
  rw [h, numberAfter, if_neg (by simp [List.isPrefixOf])]

theorem rows_td (s : Str) : numberAfter "rowspan=\"".toList ("td".toList ++ s) = numberAfter "rowspan=\"".toList s := by
  rw [show "rowspan=\"".toList = ['r', 'o', 'w', 's', 'p', 'a', 'n', '=', '"'] by decide +kernel,
    show "td".toList = ['t', 'd'] by decide +kernel]
  simp only [List.cons_append, List.nil_append]
  iterate 2 rw [numberAfter, if_neg (by simp [List.isPrefixOf])]

theorem td_cols : "td".toList ++ " colspan=\"".toList = "td colspan=\"".toList := by decide +kernel

theorem cellTag_cols (c : Cell) : numberAfter "colspan=\"".toList (cellTag c) = c.cols := by
  unfold cellTag
  split
  · rename_i h1
    split
    · rw [h1]; decide +kernel
    · rw [h1, List.append_nil, ← List.append_assoc, ← List.append_assoc, noCols_rows]
  · rw [← List.append_assoc, ← List.append_assoc, td_cols, List.append_assoc _ ['"'], List.singleton_append, number_cols]

theorem cellTag_rows (c : Cell) : numberAfter "rowspan=\"".toList (cellTag c) = c.rows := by
  have hb : numberAfter "rowspan=\"".toList (if c.rows = 1 then [] else " rowspan=\"".toList ++ natText c.rows ++ ['"']) = c.rows := by
    split
    · rename_i h; rw [h]; rfl
    · rw [number_rows]
  unfold cellTag
  split
  · rw [List.append_nil, rows_td, hb]
  · rw [← List.append_assoc, ← List.append_assoc, td_cols, List.append_assoc _ ['"'], List.singleton_append, rows_cols, hb]

theorem cellTag_end (c : Cell) : ∀ x ∈ cellTag c, decide (x ≠ '>') = true := by
  intro x hx
  rw [decide_eq_true_eq]
  rintro rfl
  have h1 : '>' ∉ "td".toList := by decide +kernel
  have h2 : '>' ∉ " colspan=\"".toList := by decide +kernel
  have h3 : '>' ∉ " rowspan=\"".toList := by decide +kernel
  have hn : ∀ n, '>' ∉ natText n := fun n => natText_not_mem n (by decide)
  unfold cellTag at hx
  rcases List.mem_append.1 hx with hx | hx
  · rcases List.mem_append.1 hx with hx | hx
    · exact h1 hx
    · split at hx
      · simp at hx
      · rcases List.mem_append.1 hx with hx | hx
        · exact (List.mem_append.1 hx).elim h2 (hn _)
        · simp at hx
  · split at hx
    · simp at hx
    · rcases List.mem_append.1 hx with hx | hx
      · exact (List.mem_append.1 hx).elim h3 (hn _)
      · simp at hx

/-- The cells on the page are read as they are. -/
theorem readCell_raw (c : Cell) : readCell (rawCell c) = c := by
  have e1 : (rawCell c).takeWhile (· ≠ '>') = cellTag c := by
    rw [rawCell, List.takeWhile_append_of_pos (cellTag_end c), List.takeWhile_cons, if_neg (by decide), List.append_nil]
  have e2 : (rawCell c).dropWhile (· ≠ '>') = '>' :: c.text := by
    rw [rawCell, List.dropWhile_append_of_pos (cellTag_end c), List.dropWhile_cons, if_neg (by decide)]
  unfold readCell
  simp only
  rw [e1, e2, cellTag_cols, cellTag_rows]
  rfl

/-- A table as it is read. -/
def shownCode (t : Option (Bool × List (List Cell))) : Option (List Str × List (List Cell)) :=
  t.map fun t => (titles t.1, t.2)

theorem readCode_raw (t : Bool × List (List Cell)) : readCode (rawTable t) = (titles t.1, t.2) := by
  rw [rawTable, read_head, List.map_map]
  refine Prod.ext rfl ?_
  refine (List.map_congr_left fun r _ => ?_).trans (List.map_id t.2)
  simp only [Function.comp, List.map_map, id]
  exact (List.map_congr_left fun c _ => readCell_raw c).trans (List.map_id r)

theorem codesOn_page (p : ClassPage) (h : ∀ t ∈ p.raws, '<' ∉ t) : codeTablesOn p.html =
    (p.fields.kids.flatMap fun k => k.codeTable.toList.flatMap fun t => (shownCode t).toList) ++
      p.methods.kids.flatMap fun k => k.codeTable.toList.flatMap fun t => (shownCode t).toList := by
  have hk : ∀ ks : List MemberView, (ks.flatMap fun k => k.codeTable.toList.flatMap rawTables).map readCode =
      ks.flatMap fun k => k.codeTable.toList.flatMap fun t => (shownCode t).toList := by
    intro ks
    rw [List.map_flatMap]
    refine congrArg (List.flatMap · ks) (funext fun k => ?_)
    rw [List.map_flatMap]
    refine congrArg (List.flatMap · _) (funext fun t => ?_)
    cases t with
    | none => rfl
    | some t =>
      show [readCode (rawTable t)] = [(titles t.1, t.2)]
      rw [readCode_raw]
  unfold codeTablesOn
  rw [reads_page code_left (.plain (noStart_anno code_annos ..)) (.plain (noStart_anno code_annos ..))
    (.plain (noStart_pool (by decide +kernel) (by decide +kernel) p.pool)) (codes_members ..) (codes_members ..) h]
  simp only [List.nil_append, List.map_append, hk]

/-! ### From the classes -/

theorem changed_groups {l r : Option CodeInfo} {rows : List (List Cell)} (h : changedCode l r = .ok rows) :
    ∃ gl gr, groupsOf l = .ok gl ∧ groupsOf r = .ok gr := by
  unfold changedCode mergeCode at h
  split at h
  · simp at h
  · rename_i m hm
    obtain ⟨gl, e1, hm⟩ := except_bind_ok hm
    obtain ⟨gr, e2, hm⟩ := except_bind_ok hm
    exact ⟨gl, gr, e1, e2⟩

theorem code_for {E : ClassPageEnv} {o : Opts} {lp rp : Pool} {lc rc : Option CodeInfo} {c : Change Opts} {v : CodeView}
    (hc : (methodCodeChange E.texts E.print.lim lp rp lc rc).check = .ok c) (h : codeViewOf o lc rc c = .ok v) :
    CodeTableFor E lp rp lc rc (shownCode v.whole) := by
  obtain ⟨w1, w2⟩ := C154_which c.isChange lc rc
  refine ⟨c, hc, fun hd => ?_, fun h1 h2 => ?_⟩
  · unfold codeViewOf at h
    rw [w1 hd] at h
    cases hr : changedCode lc rc with
    | error e => simp [hr, Except.map] at h
    | ok rows =>
      simp only [hr, Except.map, Except.ok.injEq] at h
      subst h
      obtain ⟨gl, gr, e1, e2⟩ := changed_groups hr
      obtain ⟨order, rows', shown, q1, q2, q3, q4, q5⟩ := C154_page lc rc e1 e2
      rw [hr, Except.ok.injEq] at q3
      subst q3
      exact ⟨gl, gr, order, rows, shown, e1, e2, q1, q2, rfl, q4, q5⟩
  · unfold codeViewOf at h
    rw [w2 h1 h2] at h
    cases lc with
    | none =>
      simp only [unchangedCode, Except.map, Except.ok.injEq] at h
      subst h
      exact .inl ⟨rfl, rfl⟩
    | some code =>
      cases hu : unchangedCode (some code) with
      | error e => simp [hu, Except.map] at h
      | ok t =>
        simp only [hu, Except.map, Except.ok.injEq] at h
        subst h
        cases hg : code.iterCodeByLines with
        | error e => simp [unchangedCode, hg] at hu
        | ok gs =>
          have g := C154_unchanged code hg
          rw [hu] at g
          cases hs : concatRes shownPlain gs with
          | error e => simp [hs, Except.map] at g
          | ok shown =>
            simp only [hs, Except.map, Except.ok.injEq] at g
            cases t with
            | none => simp at g
            | some rows =>
              simp only [Option.map_some, Option.some.injEq] at g
              exact .inr ⟨code, gs, rows, shown, rfl, hg, rfl, g, hs⟩

theorem fieldView_code {E : ClassPageEnv} {o : Opts} {lp rp : Pool} {d : MemberDelta} {c : Change Opts}
    {v : MemberView} (h : fieldView E o lp rp d c = .ok v) : v.codeTable = none := by
  cases d with
  | added m => simp only [fieldView, Except.ok.injEq] at h; subst h; rfl
  | removed m => simp only [fieldView, Except.ok.injEq] at h; subst h; rfl
  | changed a b =>
    unfold fieldView at h
    obtain ⟨_, e1, h⟩ := except_bind_ok h
    obtain ⟨ss, e2, h⟩ := except_bind_ok h
    obtain ⟨_, k1, h⟩ := except_bind_ok h
    obtain ⟨_, e3, h⟩ := except_bind_ok h
    obtain ⟨_, k2, h⟩ := except_bind_ok h
    obtain ⟨_, e4, h⟩ := except_bind_ok h
    simp only [Except.ok.injEq] at h
    subst h
    rfl

theorem methodView_code {E : ClassPageEnv} {o : Opts} {lp rp : Pool} {d : MemberDelta} {c : Change Opts}
    {v : MemberView} (hc : (deltaChange E.texts "Method" (methodChildren E.texts E.print.lim E.print.depth lp rp)
      lp rp d).check = .ok c) (h : methodView E o lp rp d c = .ok v) :
    match d with
    | .changed a b => ∃ t, v.codeTable = some t ∧ ∃ lc rc, a.getCode lp E.print.lim = .ok lc ∧
      b.getCode rp E.print.lim = .ok rc ∧ CodeTableFor E lp rp lc rc (shownCode t)
    | _ => v.codeTable = none := by
  cases d with
  | added m =>
    unfold methodView at h
    obtain ⟨n, e1, h⟩ := except_bind_ok h
    obtain ⟨_, e2, h⟩ := except_bind_ok h
    simp only [Except.ok.injEq] at h
    subst h
    rfl
  | removed m =>
    unfold methodView at h
    obtain ⟨n, e1, h⟩ := except_bind_ok h
    obtain ⟨_, e2, h⟩ := except_bind_ok h
    simp only [Except.ok.injEq] at h
    subst h
    rfl
  | changed a b =>
    obtain ⟨x, hk⟩ := kept_checked hc
    unfold methodView at h
    obtain ⟨_, e1, h⟩ := except_bind_ok h
    obtain ⟨_, e2, h⟩ := except_bind_ok h
    obtain ⟨_, k1, h⟩ := except_bind_ok h
    obtain ⟨_, e3, h⟩ := except_bind_ok h
    obtain ⟨_, k2, h⟩ := except_bind_ok h
    obtain ⟨_, e4, h⟩ := except_bind_ok h
    obtain ⟨lc, e5, h⟩ := except_bind_ok h
    obtain ⟨rc, e6, h⟩ := except_bind_ok h
    obtain ⟨cc, k3, h⟩ := except_bind_ok h
    obtain ⟨_, e7, h⟩ := except_bind_ok h
    simp only [Except.ok.injEq] at h
    subst h
    unfold methodChildren at hk
    rw [e5, e6] at hk
    simp only at hk
    obtain ⟨c0, h1, h2⟩ := child_checked hk k3
    simp only [List.find?_cons, List.find?_nil, genericLeaf, Change.hdr, String.reduceBEq] at h1
    split at h1
    · simp only [Option.some.injEq] at h1
      subst h1
      exact ⟨_, rfl, lc, rc, e5, e6, code_for h2 e7⟩
    · simp at h1

/-- C181. The page has at most one table of code for every method of both classes, and no others; what stands in its
columns is told by `CodeTableFor`. -/
theorem C181_tables (E : ClassPageEnv) (o : Opts) (l r : ClassInfo) (p : ClassPage)
    (h : classReportPage E o l r = .ok p) (hl : JavaMembers E.print.lim l) (hr : JavaMembers E.print.lim r)
    (hpl : PlainTexts E.print l) (hpr : PlainTexts E.print r) :
    ∃ ms : List (Member × Option (List Str × List (List Cell))),
      codeTablesOn p.html = ms.filterMap Prod.snd ∧
      (ms.map Prod.fst).Nodup ∧
      (∀ m, m ∈ ms.map Prod.fst ↔ Fate.Of (SameMethod E.print.lim l.pool r.pool) l.methods r.methods .kept m) ∧
      ∀ x ∈ ms, ∃ b ∈ r.methods, SameMethod E.print.lim l.pool r.pool x.1 b ∧
        ∃ lc rc, x.1.getCode l.pool E.print.lim = .ok lc ∧ b.getCode r.pool E.print.lim = .ok rc ∧
          CodeTableFor E l.pool r.pool lc rc x.2 := by
  have hm := madeFrom h
  obtain ⟨fds, hfd, hfn, hff, hfc⟩ := fields_fates hl hr
  obtain ⟨mds, hmd, hmn, hmf, hmc⟩ := methods_fates hl hr
  obtain ⟨fc, hfc', hfv⟩ := hm.fields
  obtain ⟨mc, hmc', hmv⟩ := hm.methods
  obtain ⟨fx, f1, f2, f3⟩ := members_tables hfd hfc' hfv
  obtain ⟨mx, m1, m2, m3⟩ := members_tables hmd hmc' hmv
  obtain ⟨ms, b1, b2, b3, b4⟩ := kept_annos (get := fun v => v.codeTable.map shownCode) (out := Option.toList) (Q := fun a b t =>
    ∃ lc rc, a.getCode l.pool E.print.lim = .ok lc ∧ b.getCode r.pool E.print.lim = .ok rc ∧
      CodeTableFor E l.pool r.pool lc rc t) hmn hmf hmc m1 m2 (fun x hx => by
      obtain ⟨c, hc, hv⟩ := m3 x hx
      obtain ⟨d, v⟩ := x
      cases d with
      | added m => exact (congrArg (Option.map shownCode) (methodView_code hc hv) :)
      | removed m => exact (congrArg (Option.map shownCode) (methodView_code hc hv) :)
      | changed a b =>
        obtain ⟨t, e, ht⟩ := methodView_code hc hv
        exact ⟨_, congrArg (Option.map shownCode) e, ht⟩)
  refine ⟨ms, ?_, b2, b3, b4⟩
  have hf : (p.fields.kids.flatMap fun k => k.codeTable.toList.flatMap fun t => (shownCode t).toList) = [] := by
    rw [List.flatMap_eq_nil_iff, ← f2]
    intro k hk
    obtain ⟨x, hx, rfl⟩ := List.mem_map.1 hk
    obtain ⟨c, _, hv⟩ := f3 x hx
    rw [fieldView_code hv]
    rfl
  have hm' : (p.methods.kids.flatMap fun k => k.codeTable.toList.flatMap fun t => (shownCode t).toList) =
      p.methods.kids.flatMap fun k => (k.codeTable.map shownCode).toList.flatMap Option.toList := by
    refine congrArg (List.flatMap · _) (funext fun k => ?_)
    cases k.codeTable <;> rfl
  rw [codesOn_page p (page_clean h hl hr hpl hpr), hf, hm', b1, List.nil_append]
  clear b1 b2 b3 b4
  induction ms with
  | nil => rfl
  | cons x ms ih =>
    rw [List.flatMap_cons, ih, List.filterMap_cons]
    cases x.2 <;> rfl

/-- `class A extends B { void k() {…} }` with this code, all of it on one line. -/
def classWithCode (line : UInt8) (code : Bytes) : ClassInfo :=
  ⟨(52, 0), pagePool ++ [some (.utf8 "LineNumberTable".toList)], 0x21, 2, 11, [], [],
    [⟨1, 5, 7, [(.str "Code".toList, [0, 1, 0, 1, 0, 0, 0, code.length.toUInt8] ++ code ++
      [0, 0, 0, 1, 0, 12, 0, 0, 0, 6, 0, 1, 0, 0, 0, line])], true⟩], []⟩

/-- The first has one instruction more, which leaves three columns empty beside its last one. -/
example : (classReportPage pageEnv [] (classWithCode 9 [0, 177]) (classWithCode 8 [177])).map
    (fun p => (codeTablesOn p.html).map fun t => readColumns 9 t.2) = .ok
    [some [["0".toList, "9".toList, "0".toList, "nop".toList, [], "8".toList, "0".toList, "return".toList, []],
      ["0".toList, "9".toList, "1".toList, "return".toList, [], "8".toList, [], [], []]]] := by decide +kernel

example : (classReportPage pageEnv [] (classWithCode 9 [0, 177]) (classWithCode 9 [0, 177])).map
    (fun p => (codeTablesOn p.html).map fun t => readColumns 5 t.2) = .ok
    [some [["0".toList, "9".toList, "0".toList, "nop".toList, []],
      ["0".toList, "9".toList, "1".toList, "return".toList, []]]] := by decide +kernel

end Javatools
