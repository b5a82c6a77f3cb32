import Verif.Model.Markup
import Verif.Spec.Markup
import Verif.Props.Report
import Verif.Proofs.Listing
/-
C157: the tags of the HTML report on a class do not depend on the texts of the class.
C158: the HTML report on a class is well-formed.
-/
namespace Javatools

/-! ### Reading what was rendered -/

/-- A tag that ends at the `>` after it. -/
def tagOk : Bool → Str → Bool
  | q, [] => !q
  | q, c :: s => if c = '>' ∧ q = false then false else tagOk (if c = '"' then !q else q) s

theorem tagsFrom_tag (s : Str) (q : Bool) (acc rest : Str) (h : tagOk q s = true) :
    tagsFrom (some (acc, q)) (s ++ '>' :: rest) = (acc.reverse ++ s) :: tagsFrom none rest := by
  induction s generalizing q acc with
  | nil =>
    cases q <;> simp [tagOk] at h
    simp [tagsFrom]
  | cons c s ih =>
    rw [tagOk] at h
    split at h
    · simp at h
    · rename_i hc
      rw [List.cons_append, tagsFrom, if_neg hc, ih _ _ h]
      simp

theorem tagsFrom_text (s rest : Str) (h : '<' ∉ s) :
    tagsFrom none (s ++ rest) = tagsFrom none rest := by
  induction s with
  | nil => rfl
  | cons c s ih =>
    simp only [List.mem_cons, not_or] at h
    rw [List.cons_append, tagsFrom, if_neg (fun e => h.1 e.symm), ih h.2]

/-- A piece that is read as it was meant. -/
def Frag.clean : Frag → Bool
  | .tag s => tagOk false s
  | .esc _ => true
  | .raw s => !s.contains '<'

/-- The tags among the pieces. -/
def fragTags : List Frag → List Str
  | [] => []
  | .tag s :: fs => s :: fragTags fs
  | .esc _ :: fs => fragTags fs
  | .raw _ :: fs => fragTags fs

theorem fragTags_append (a b : List Frag) : fragTags (a ++ b) = fragTags a ++ fragTags b := by
  fun_induction fragTags a <;> simp_all [fragTags]

theorem fragTags_flatMap {α : Type} (f : α → List Frag) (l : List α) :
    fragTags (l.flatMap f) = l.flatMap fun x => fragTags (f x) := by
  induction l with
  | nil => rfl
  | cons x l ih => simp [fragTags_append, ih]

theorem tagsOf_render_append (fs : List Frag) (h : fs.all Frag.clean = true) (rest : Str) :
    tagsFrom none (renderFrags fs ++ rest) = fragTags fs ++ tagsFrom none rest := by
  induction fs with
  | nil => rfl
  | cons f fs ih =>
    simp only [List.all_cons, Bool.and_eq_true] at h
    have ih := ih h.2
    cases f with
    | tag s =>
      have h1 : tagOk false s = true := h.1
      simp only [renderFrags, fragTags, List.cons_append, List.append_assoc]
      rw [tagsFrom, if_pos rfl, tagsFrom_tag s false [] _ h1, ih]
      rfl
    | esc s =>
      simp only [renderFrags, fragTags, List.append_assoc]
      rw [tagsFrom_text _ _ (C116_inert s).1, ih]
    | raw s =>
      have h1 : '<' ∉ s := by simpa [Frag.clean] using h.1
      simp only [renderFrags, fragTags, List.append_assoc]
      rw [tagsFrom_text _ _ h1, ih]

theorem tagsOf_render {fs : List Frag} (h : fs.all Frag.clean = true) :
    tagsOf (renderFrags fs) = fragTags fs := by
  have := tagsOf_render_append fs h []
  simpa [tagsOf, tagsFrom] using this

theorem renderFrags_append (a b : List Frag) :
    renderFrags (a ++ b) = renderFrags a ++ renderFrags b := by
  fun_induction renderFrags a <;> simp_all [renderFrags]

/-- What a piece is, if it is a tag. -/
def Frag.kind : Frag → Option TagKind
  | .tag s => some (tagKind s)
  | _ => none

/-! ### The fixed tags and texts of the templates -/

@[simp] theorem tag0_clean : (tg "tr").clean = true := by decide +kernel
@[simp] theorem tag0_kind : (tg "tr").kind = some (.start ['t', 'r']) := by decide +kernel
@[simp] theorem tag1_clean : (tg "th rowspan=\"2\"").clean = true := by decide +kernel
@[simp] theorem tag1_kind : (tg "th rowspan=\"2\"").kind = some (.start ['t', 'h']) := by decide +kernel
@[simp] theorem tag2_clean : (tg "/th").clean = true := by decide +kernel
@[simp] theorem tag2_kind : (tg "/th").kind = some (.stop ['t', 'h']) := by decide +kernel
@[simp] theorem tag3_clean : (tg "td").clean = true := by decide +kernel
@[simp] theorem tag3_kind : (tg "td").kind = some (.start ['t', 'd']) := by decide +kernel
@[simp] theorem tag4_clean : (tg "/td").clean = true := by decide +kernel
@[simp] theorem tag4_kind : (tg "/td").kind = some (.stop ['t', 'd']) := by decide +kernel
@[simp] theorem tag5_clean : (tg "/tr").clean = true := by decide +kernel
@[simp] theorem tag5_kind : (tg "/tr").kind = some (.stop ['t', 'r']) := by decide +kernel
@[simp] theorem tag6_clean : (tg "th").clean = true := by decide +kernel
@[simp] theorem tag6_kind : (tg "th").kind = some (.start ['t', 'h']) := by decide +kernel
@[simp] theorem tag7_clean : (tg "div class=\"details\"").clean = true := by decide +kernel
@[simp] theorem tag7_kind : (tg "div class=\"details\"").kind = some (.start ['d', 'i', 'v']) := by decide +kernel
@[simp] theorem tag8_clean : (tg "div class=\"lrdata\"").clean = true := by decide +kernel
@[simp] theorem tag8_kind : (tg "div class=\"lrdata\"").kind = some (.start ['d', 'i', 'v']) := by decide +kernel
@[simp] theorem tag9_clean : (tg "table class=\"left-headers\"").clean = true := by decide +kernel
@[simp] theorem tag9_kind : (tg "table class=\"left-headers\"").kind = some (.start ['t', 'a', 'b', 'l', 'e']) := by decide +kernel
@[simp] theorem tag10_clean : (tg "/table").clean = true := by decide +kernel
@[simp] theorem tag10_kind : (tg "/table").kind = some (.stop ['t', 'a', 'b', 'l', 'e']) := by decide +kernel
@[simp] theorem tag11_clean : (tg "/div").clean = true := by decide +kernel
@[simp] theorem tag11_kind : (tg "/div").kind = some (.stop ['d', 'i', 'v']) := by decide +kernel
@[simp] theorem tag12_clean : (tg "/h2").clean = true := by decide +kernel
@[simp] theorem tag12_kind : (tg "/h2").kind = some (.stop ['h', '2']) := by decide +kernel
@[simp] theorem tag13_clean : (tg "div class=\"description\"").clean = true := by decide +kernel
@[simp] theorem tag13_kind : (tg "div class=\"description\"").kind = some (.start ['d', 'i', 'v']) := by decide +kernel
@[simp] theorem tag14_clean : (tg "div class=\"collect\"").clean = true := by decide +kernel
@[simp] theorem tag14_kind : (tg "div class=\"collect\"").kind = some (.start ['d', 'i', 'v']) := by decide +kernel
@[simp] theorem tag15_clean : (tg "table class=\"annotations\"").clean = true := by decide +kernel
@[simp] theorem tag15_kind : (tg "table class=\"annotations\"").kind = some (.start ['t', 'a', 'b', 'l', 'e']) := by decide +kernel
@[simp] theorem tag16_clean : (tg "thead").clean = true := by decide +kernel
@[simp] theorem tag16_kind : (tg "thead").kind = some (.start ['t', 'h', 'e', 'a', 'd']) := by decide +kernel
@[simp] theorem tag17_clean : (tg "/thead").clean = true := by decide +kernel
@[simp] theorem tag17_kind : (tg "/thead").kind = some (.stop ['t', 'h', 'e', 'a', 'd']) := by decide +kernel
@[simp] theorem tag18_clean : (tg "td class=\"const-index\"").clean = true := by decide +kernel
@[simp] theorem tag18_kind : (tg "td class=\"const-index\"").kind = some (.start ['t', 'd']) := by decide +kernel
@[simp] theorem tag19_clean : (tg "td class=\"const-value\"").clean = true := by decide +kernel
@[simp] theorem tag19_kind : (tg "td class=\"const-value\"").kind = some (.start ['t', 'd']) := by decide +kernel
@[simp] theorem tag20_clean : (tg "th colspan=\"2\"").clean = true := by decide +kernel
@[simp] theorem tag20_kind : (tg "th colspan=\"2\"").kind = some (.start ['t', 'h']) := by decide +kernel
@[simp] theorem tag21_clean : (tg "table class=\"constant-pool\"").clean = true := by decide +kernel
@[simp] theorem tag21_kind : (tg "table class=\"constant-pool\"").kind = some (.start ['t', 'a', 'b', 'l', 'e']) := by decide +kernel
@[simp] theorem tag22_clean : (tg "td class=\"const-type\"").clean = true := by decide +kernel
@[simp] theorem tag22_kind : (tg "td class=\"const-type\"").kind = some (.start ['t', 'd']) := by decide +kernel
@[simp] theorem tag23_clean : (tg "td class=\"const-type empty\"").clean = true := by decide +kernel
@[simp] theorem tag23_kind : (tg "td class=\"const-type empty\"").kind = some (.start ['t', 'd']) := by decide +kernel
@[simp] theorem tag24_clean : (tg "td class=\"const-value empty\"").clean = true := by decide +kernel
@[simp] theorem tag24_kind : (tg "td class=\"const-value empty\"").kind = some (.start ['t', 'd']) := by decide +kernel
@[simp] theorem tag25_clean : (tg "td class=\"const-type is_changed\"").clean = true := by decide +kernel
@[simp] theorem tag25_kind : (tg "td class=\"const-type is_changed\"").kind = some (.start ['t', 'd']) := by decide +kernel
@[simp] theorem tag26_clean : (tg "td class=\"const-value is_changed\"").clean = true := by decide +kernel
@[simp] theorem tag26_kind : (tg "td class=\"const-value is_changed\"").kind = some (.start ['t', 'd']) := by decide +kernel
@[simp] theorem tag27_clean : (tg "table class=\"dual-constant-pool\"").clean = true := by decide +kernel
@[simp] theorem tag27_kind : (tg "table class=\"dual-constant-pool\"").kind = some (.start ['t', 'a', 'b', 'l', 'e']) := by decide +kernel
@[simp] theorem tag28_clean : (tg "th colspan=\"4\"").clean = true := by decide +kernel
@[simp] theorem tag28_kind : (tg "th colspan=\"4\"").kind = some (.start ['t', 'h']) := by decide +kernel
@[simp] theorem tag29_clean : (tg "table").clean = true := by decide +kernel
@[simp] theorem tag29_kind : (tg "table").kind = some (.start ['t', 'a', 'b', 'l', 'e']) := by decide +kernel
@[simp] theorem tag30_clean : (tg "h3").clean = true := by decide +kernel
@[simp] theorem tag30_kind : (tg "h3").kind = some (.start ['h', '3']) := by decide +kernel
@[simp] theorem tag31_clean : (tg "/h3").clean = true := by decide +kernel
@[simp] theorem tag31_kind : (tg "/h3").kind = some (.stop ['h', '3']) := by decide +kernel
@[simp] theorem tag32_clean : (tg "/div\n<div class=\"details\"").clean = true := by decide +kernel
@[simp] theorem tag32_kind : (tg "/div\n<div class=\"details\"").kind = some (.stop ['d', 'i', 'v']) := by decide +kernel
@[simp] theorem tag33_clean : (tg "h1").clean = true := by decide +kernel
@[simp] theorem tag33_kind : (tg "h1").kind = some (.start ['h', '1']) := by decide +kernel
@[simp] theorem tag34_clean : (tg "/h1").clean = true := by decide +kernel
@[simp] theorem tag34_kind : (tg "/h1").kind = some (.stop ['h', '1']) := by decide +kernel
@[simp] theorem tag35_clean : (tg "div id=\"report-details\"").clean = true := by decide +kernel
@[simp] theorem tag35_kind : (tg "div id=\"report-details\"").kind = some (.start ['d', 'i', 'v']) := by decide +kernel
@[simp] theorem tag36_clean : (tg "span class=\"moreinfo\"").clean = true := by decide +kernel
@[simp] theorem tag36_kind : (tg "span class=\"moreinfo\"").kind = some (.start ['s', 'p', 'a', 'n']) := by decide +kernel
@[simp] theorem tag37_clean : (tg "/a").clean = true := by decide +kernel
@[simp] theorem tag37_kind : (tg "/a").kind = some (.stop ['a']) := by decide +kernel
@[simp] theorem tag38_clean : (tg "/span").clean = true := by decide +kernel
@[simp] theorem tag38_kind : (tg "/span").kind = some (.stop ['s', 'p', 'a', 'n']) := by decide +kernel
@[simp] theorem tag39_clean : (tg "td class=\"is_changed\"").clean = true := by decide +kernel
@[simp] theorem tag39_kind : (tg "td class=\"is_changed\"").kind = some (.start ['t', 'd']) := by decide +kernel
@[simp] theorem tag40_clean : (tg "td class=\"const-value is_unchanged\"").clean = true := by decide +kernel
@[simp] theorem tag40_kind : (tg "td class=\"const-value is_unchanged\"").kind = some (.start ['t', 'd']) := by decide +kernel
@[simp] theorem text0_clean : (txt "Index").clean = true := by decide +kernel
@[simp] theorem text1_clean : (txt "Annotation").clean = true := by decide +kernel
@[simp] theorem text2_clean : (txt "Original").clean = true := by decide +kernel
@[simp] theorem text3_clean : (txt "Changed").clean = true := by decide +kernel
@[simp] theorem text4_clean : (txt "Type").clean = true := by decide +kernel
@[simp] theorem text5_clean : (txt "Value").clean = true := by decide +kernel
@[simp] theorem text6_clean : (txt "Original Type").clean = true := by decide +kernel
@[simp] theorem text7_clean : (txt "Original Value").clean = true := by decide +kernel
@[simp] theorem text8_clean : (txt "Modified Type").clean = true := by decide +kernel
@[simp] theorem text9_clean : (txt "Modified Value").clean = true := by decide +kernel
@[simp] theorem text10_clean : (txt "Relative").clean = true := by decide +kernel
@[simp] theorem text11_clean : (txt "Modified").clean = true := by decide +kernel
@[simp] theorem text12_clean : (txt "line").clean = true := by decide +kernel
@[simp] theorem text13_clean : (txt "offset").clean = true := by decide +kernel
@[simp] theorem text14_clean : (txt "opcode").clean = true := by decide +kernel
@[simp] theorem text15_clean : (txt "args").clean = true := by decide +kernel
@[simp] theorem text16_clean : (txt "Method Code").clean = true := by decide +kernel
@[simp] theorem text17_clean : (txt "Method Added").clean = true := by decide +kernel
@[simp] theorem text18_clean : (txt "Method Removed").clean = true := by decide +kernel
@[simp] theorem text19_clean : (txt "[").clean = true := by decide +kernel
@[simp] theorem text20_clean : (txt "details").clean = true := by decide +kernel
@[simp] theorem text21_clean : (txt "]").clean = true := by decide +kernel
@[simp] theorem text22_clean : (txt "Class runtime annotations").clean = true := by decide +kernel
@[simp] theorem text23_clean : (txt "Class runtime invisible annotations").clean = true := by decide +kernel
@[simp] theorem text24_clean : (txt "Field runtime annotations").clean = true := by decide +kernel
@[simp] theorem text25_clean : (txt "Field runtime invisible annotations").clean = true := by decide +kernel
@[simp] theorem text26_clean : (txt "Method runtime annotations").clean = true := by decide +kernel
@[simp] theorem text27_clean : (txt "Method runtime invisible annotations").clean = true := by decide +kernel

/-! ### The texts of a page -/

/-- A property with its texts replaced. -/
def Sub.mapText (f : Str → Str) (s : Sub) : Sub := { s with left := f s.left, right := f s.right }

/-- An annotations change with its texts replaced. -/
def AnnoView.mapText (f : Str → Str) (a : AnnoView) : AnnoView :=
  { a with rows := a.rows.map fun r => { r with left := f r.left, right := f r.right } }

/-- A row of constants with its texts replaced. -/
def PoolRow.mapText (f : Str → Str) (r : PoolRow) : PoolRow :=
  { r with left := (f r.left.1, f r.left.2), right := r.right.map fun p => (f p.1, f p.2) }

/-- A constant pool change with its texts replaced. -/
def PoolView.mapText (f : Str → Str) (p : PoolView) : PoolView :=
  { p with desc := f p.desc, rows := p.rows.map (PoolRow.mapText f) }

/-- A code change with its texts replaced. -/
def CodeView.mapText (f : Str → Str) (c : CodeView) : CodeView :=
  { c with table := c.table.map fun rows => rows.map fun r => r.map fun x => { x with text := f x.text } }

/-- A change of a member with its texts replaced. -/
def MemberView.mapText (f : Str → Str) : MemberView → MemberView
  | .field v n subs a b => .field v (f n) (subs.map (Sub.mapText f)) (a.mapText f) (b.mapText f)
  | .method v n subs a b c =>
    .method v (f n) (subs.map (Sub.mapText f)) (a.mapText f) (b.mapText f) (c.mapText f)
  | .methodAdded v n subs => .methodAdded v (f n) (subs.map (Sub.mapText f))
  | .methodRemoved v n subs => .methodRemoved v (f n) (subs.map (Sub.mapText f))
  | .fieldAdded v => .fieldAdded v
  | .fieldRemoved v => .fieldRemoved v

/-- The members with their texts replaced. -/
def MembersView.mapText (f : Str → Str) (m : MembersView) : MembersView :=
  { m with desc := f m.desc, kids := m.kids.map (MemberView.mapText f) }

/-- The data of a page with every text replaced. -/
def ClassPage.mapText (f : Str → Str) (p : ClassPage) : ClassPage :=
  { p with
    title := f p.title, infoDesc := f p.infoDesc, info := p.info.map (Sub.mapText f),
    annos := p.annos.mapText f, invisible := p.invisible.mapText f, pool := p.pool.mapText f,
    fields := p.fields.mapText f, methods := p.methods.mapText f }

/-- The page. -/
def ClassPage.html (p : ClassPage) : Str := renderFrags (classFrags p)

/-! ### The texts that are not escaped -/

/-- Both texts of the properties at these places of a table. -/
def rawAt (idx : List Nat) (subs : List Sub) : List Str :=
  idx.flatMap fun i => match subs[i]? with
    | some s => [s.left, s.right]
    | none => []

/-- The texts of annotations. -/
def AnnoView.raws (a : AnnoView) : List Str := a.rows.flatMap fun r => [r.left, r.right]

/-- The names of the types of constants. -/
def PoolView.raws (p : PoolView) : List Str :=
  p.rows.flatMap fun r => r.left.1 :: (match r.right with | some q => [q.1] | none => [])

/-- The numbers, names of instructions and operands. -/
def CodeView.raws (c : CodeView) : List Str :=
  match c.table with
  | none => []
  | some rows => rows.flatMap fun r => r.map Cell.text

/-- Of a field: type, flags, deprecation, and annotations; of a method: type, arguments, flags,
exceptions, being abstract, deprecation, annotations and code. -/
def MemberView.raws : MemberView → List Str
  | .field _ _ subs a b => rawAt [1, 2, 5] subs ++ a.raws ++ b.raws
  | .method _ _ subs a b c => rawAt [1, 2, 3, 5, 6, 7] subs ++ a.raws ++ b.raws ++ c.raws
  | _ => []

/-- Of the class: everything but the generic signature; annotations; the types of constants; what
fields and methods have. -/
def ClassPage.raws (p : ClassPage) : List Str :=
  rawAt [0, 1, 2, 3, 4, 5, 7] p.info ++ p.annos.raws ++ p.invisible.raws ++ p.pool.raws ++
    p.fields.kids.flatMap MemberView.raws ++ p.methods.kids.flatMap MemberView.raws

/-! ### The pieces are clean -/

/-- A text without `<`. -/
def NoTag (s : Str) : Prop := '<' ∉ s

theorem clean_raw {s : Str} (h : NoTag s) : (Frag.raw s).clean = true := by
  unfold NoTag at h
  simpa [Frag.clean] using h

theorem clean_nat (n : Nat) : (Frag.raw (natText n)).clean = true :=
  clean_raw (natText_not_mem n (by decide))

theorem clean_esc (s : Str) : (Frag.esc s).clean = true := rfl

theorem clean_text (spec : RowSpec) (s : Str) (h : spec.escapes = false → NoTag s) :
    (spec.text s).clean = true := by
  unfold RowSpec.text
  cases he : spec.escapes
  · exact clean_raw (h he)
  · rfl

theorem tagOk_plain (q : Bool) (s t : Str) (h1 : '>' ∉ s) (h2 : '"' ∉ s) :
    tagOk q (s ++ t) = tagOk q t := by
  induction s with
  | nil => rfl
  | cons c s ih =>
    simp only [List.mem_cons, not_or] at h1 h2
    rw [List.cons_append, tagOk, if_neg (fun e => h1.1 e.1.symm), if_neg (fun e => h2.1 e.symm),
      ih h1.2 h2.2]

theorem clean_cellTag (c : Cell) : (Frag.tag (cellTag c)).clean = true := by
  have hn : ∀ n : Nat, '>' ∉ natText n ∧ '"' ∉ natText n := fun n =>
    ⟨natText_not_mem n (by decide), natText_not_mem n (by decide)⟩
  have hq : ∀ (n : Nat) (t : Str), tagOk true (natText n ++ '"' :: t) = tagOk false t := by
    intro n t
    rw [tagOk_plain _ _ _ (hn n).1 (hn n).2]
    simp [tagOk]
  have e0 : "td".toList = ['t', 'd'] := rfl
  have e1 : " colspan=\"".toList = [' ', 'c', 'o', 'l', 's', 'p', 'a', 'n', '=', '"'] := rfl
  have e2 : " rowspan=\"".toList = [' ', 'r', 'o', 'w', 's', 'p', 'a', 'n', '=', '"'] := rfl
  show tagOk false (cellTag c) = true
  unfold cellTag
  rw [e0, e1, e2]
  by_cases h1 : c.cols = 1 <;> by_cases h2 : c.rows = 1 <;> simp [h1, h2, tagOk, hq]

/-- The classes of changes that have a `div` in the page. -/
def pageTypes : List String := [
  "ClassInfoChange", "ClassAnnotationsChange", "ClassInvisibleAnnotationsChange",
  "ClassConstantPoolChange", "ClassFieldsChange", "ClassMethodsChange", "FieldChange",
  "FieldAnnotationsChange", "FieldInvisibleAnnotationsChange", "MethodChange",
  "MethodAnnotationsChange", "MethodInvisibleAnnotationsChange", "MethodCodeChange", "MethodAdded",
  "MethodRemoved", "FieldAdded", "FieldRemoved"]

theorem divTag_ok : ∀ type ∈ pageTypes, ∀ v : Verdict,
    (tg ("div class=\"" ++ divClasses type v ++ "\"")).clean = true ∧
    tagKind ("div class=\"" ++ divClasses type v ++ "\"").toList = .start ['d', 'i', 'v'] := by
  intro type ht v
  rcases v with ⟨_ | _, _ | _⟩ <;> revert type <;> decide +kernel

theorem h2_info : (tg ("h2 id=\"" ++ "ClassInfoChange" ++ "\"")).clean = true := by decide +kernel
theorem h2_pool : (tg ("h2 id=\"" ++ "ClassConstantPoolChange" ++ "\"")).clean = true := by
  decide +kernel
theorem h2_fields : (tg ("h2 id=\"" ++ "ClassFieldsChange" ++ "\"")).clean = true := by decide +kernel
theorem h2_methods : (tg ("h2 id=\"" ++ "ClassMethodsChange" ++ "\"")).clean = true := by
  decide +kernel
theorem labels_clean : ∀ l ∈ ["Class information", "Constant pool", "Fields", "Methods",
    "Class runtime annotations", "Class runtime invisible annotations", "Field runtime annotations",
    "Field runtime invisible annotations", "Method runtime annotations",
    "Method runtime invisible annotations"], (txt l).clean = true := by decide +kernel

theorem fragTags_tg (s : String) (fs : List Frag) : fragTags (tg s :: fs) = s.toList :: fragTags fs := rfl
theorem fragTags_txt (s : String) (fs : List Frag) : fragTags (txt s :: fs) = fragTags fs := rfl
theorem fragTags_text (spec : RowSpec) (s : Str) (fs : List Frag) :
    fragTags (spec.text s :: fs) = fragTags fs := by
  unfold RowSpec.text; split <;> rfl
theorem txt_kind (s : String) : (txt s).kind = none := rfl
theorem raw_kind (s : Str) : (Frag.raw s).kind = none := rfl
theorem esc_kind (s : Str) : (Frag.esc s).kind = none := rfl
theorem text_kind (spec : RowSpec) (s : Str) : (spec.text s).kind = none := by
  unfold RowSpec.text; split <;> rfl
theorem tg_kind (s : String) : (tg s).kind = some (tagKind s.toList) := rfl
theorem cell_kind (c : Cell) : (Frag.tag (cellTag c)).kind = some (.start ['t', 'd']) := by
  have e0 : "td".toList = ['t', 'd'] := rfl
  have e1 : " colspan=\"".toList = [' ', 'c', 'o', 'l', 's', 'p', 'a', 'n', '=', '"'] := rfl
  have e2 : " rowspan=\"".toList = [' ', 'r', 'o', 'w', 's', 'p', 'a', 'n', '=', '"'] := rfl
  show some (tagKind (cellTag c)) = _
  unfold cellTag
  rw [e0, e1, e2]
  by_cases h1 : c.cols = 1 <;> by_cases h2 : c.rows = 1 <;> simp [h1, h2, tagKind, tagName]
theorem h2_kinds : ∀ type ∈ ["ClassInfoChange", "ClassConstantPoolChange", "ClassFieldsChange",
    "ClassMethodsChange"], (tg ("h2 id=\"" ++ type ++ "\"")).kind = some (.start ['h', '2']) := by
  decide +kernel
theorem div_kind {type : String} (ht : type ∈ pageTypes) (v : Verdict) :
    (tg ("div class=\"" ++ divClasses type v ++ "\"")).kind = some (.start ['d', 'i', 'v']) := by
  rw [tg_kind, (divTag_ok type ht v).2]

attribute [local irreducible] tg txt Frag.clean

/-- Goals about pieces. -/
macro "clean_all" : tactic => `(tactic|
  simp only [List.all_cons, List.all_nil, List.all_append, Bool.and_true, Bool.true_and,
    List.cons_append, List.nil_append, clean_nat, clean_esc, clean_raw, *, tag0_clean, tag1_clean, tag2_clean, tag3_clean, tag4_clean, tag5_clean, tag6_clean, tag7_clean, tag8_clean, tag9_clean, tag10_clean, tag11_clean, tag12_clean, tag13_clean, tag14_clean, tag15_clean, tag16_clean, tag17_clean, tag18_clean, tag19_clean, tag20_clean, tag21_clean, tag22_clean, tag23_clean, tag24_clean, tag25_clean, tag26_clean, tag27_clean, tag28_clean, tag29_clean, tag30_clean, tag31_clean, tag32_clean, tag33_clean, tag34_clean, tag35_clean, tag36_clean, tag37_clean, tag38_clean, tag39_clean, tag40_clean, text0_clean, text1_clean, text2_clean, text3_clean, text4_clean, text5_clean, text6_clean, text7_clean, text8_clean, text9_clean, text10_clean, text11_clean, text12_clean, text13_clean, text14_clean, text15_clean, text16_clean, text17_clean, text18_clean, text19_clean, text20_clean, text21_clean, text22_clean, text23_clean, text24_clean, text25_clean, text26_clean, text27_clean])

theorem clean_subRow (spec : RowSpec) (s : Sub) (hl : (txt spec.label).clean = true)
    (h : spec.escapes = false → NoTag s.left ∧ NoTag s.right) :
    (subRow spec s).all Frag.clean = true := by
  have h1 := clean_text spec s.left fun e => (h e).1
  have h2 := clean_text spec s.right fun e => (h e).2
  unfold subRow
  split
  · cases spec.marks <;> simp only [if_true, if_false, Bool.false_eq_true] <;> clean_all
  · split
    · cases spec.closes <;> simp only [if_true, if_false, Bool.false_eq_true] <;> clean_all
    · rfl

theorem clean_subRows (specs : List RowSpec) (subs : List Sub)
    (h : ∀ (i : Nat) spec, specs[i]? = some spec → (txt spec.label).clean = true ∧
      (spec.escapes = false → ∀ s, subs[i]? = some s → NoTag s.left ∧ NoTag s.right)) :
    (subRows specs subs).all Frag.clean = true := by
  induction specs generalizing subs with
  | nil => rfl
  | cons spec specs ih =>
    cases subs with
    | nil => rfl
    | cons s subs =>
      rw [subRows, List.all_append, Bool.and_eq_true]
      have h0 := h 0 spec rfl
      exact ⟨clean_subRow spec s h0.1 fun e => h0.2 e s rfl,
        ih subs fun i sp hi => h (i + 1) sp (by simpa using hi)⟩

/-- The places of a table that are not escaped are among these. -/
def RawPlaces (specs : List RowSpec) (idx : List Nat) : Prop :=
  ∀ i < specs.length, ∀ spec, specs[i]? = some spec →
    (txt spec.label).clean = true ∧ (spec.escapes = false → i ∈ idx)

theorem clean_table {specs : List RowSpec} {idx : List Nat} (hp : RawPlaces specs idx)
    (subs : List Sub) (h : ∀ t ∈ rawAt idx subs, NoTag t) :
    (subRows specs subs).all Frag.clean = true := by
  apply clean_subRows
  intro i spec hi
  have hlt : i < specs.length := (List.getElem?_eq_some_iff.1 hi).1
  obtain ⟨h1, h2⟩ := hp i hlt spec hi
  refine ⟨h1, fun he s hs => ?_⟩
  have : ∀ t, t = s.left ∨ t = s.right → t ∈ rawAt idx subs := by
    intro t ht
    unfold rawAt
    rw [List.mem_flatMap]
    refine ⟨i, h2 he, ?_⟩
    simp only [hs]
    simpa using ht
  exact ⟨h _ (this _ (.inl rfl)), h _ (this _ (.inr rfl))⟩

theorem rawPlaces_of_all {specs : List RowSpec} {idx : List Nat}
    (h : ((List.range specs.length).all fun i => match specs[i]? with
      | some spec => (txt spec.label).clean && (spec.escapes || idx.contains i)
      | none => true) = true) : RawPlaces specs idx := by
  intro i hi spec hs
  have := List.all_eq_true.1 h i (List.mem_range.2 hi)
  simp only [hs, Bool.and_eq_true, Bool.or_eq_true, List.contains_eq_mem, decide_eq_true_eq] at this
  exact ⟨this.1, fun e => this.2.resolve_left (by simp [e])⟩

theorem classRows_raw : RawPlaces classRows [0, 1, 2, 3, 4, 5, 7] :=
  rawPlaces_of_all (by decide +kernel)
theorem fieldRows_raw : RawPlaces fieldRows [1, 2, 5] := rawPlaces_of_all (by decide +kernel)
theorem methodRows_raw : RawPlaces methodRows [1, 2, 3, 5, 6, 7] :=
  rawPlaces_of_all (by decide +kernel)
theorem lonelyRows_raw : RawPlaces lonelyRows [] := rawPlaces_of_all (by decide +kernel)

theorem clean_leftTable {specs : List RowSpec} {subs : List Sub}
    (h : (subRows specs subs).all Frag.clean = true) :
    (leftTable specs subs).all Frag.clean = true := by
  unfold leftTable; clean_all

theorem clean_changeDiv {type : String} (ht : type ∈ pageTypes) (v : Verdict) {body : List Frag}
    (h : body.all Frag.clean = true) : (changeDiv type v body).all Frag.clean = true := by
  have := (divTag_ok type ht v).1
  unfold changeDiv; clean_all

theorem clean_flatMap {α : Type} (f : α → List Frag) (l : List α)
    (h : ∀ x ∈ l, (f x).all Frag.clean = true) : (l.flatMap f).all Frag.clean = true := by
  induction l with
  | nil => rfl
  | cons x l ih =>
    rw [List.flatMap_cons, List.all_append, Bool.and_eq_true]
    exact ⟨h x (by simp), ih fun y hy => h y (by simp [hy])⟩

theorem clean_anno {type label : String} (ht : type ∈ pageTypes) (hl : (txt label).clean = true)
    (a : AnnoView) (h : ∀ t ∈ a.raws, NoTag t) : (annoFrags type label a).all Frag.clean = true := by
  have hr : ∀ r ∈ a.rows, NoTag r.left ∧ NoTag r.right := fun r hr =>
    ⟨h _ (List.mem_flatMap.2 ⟨r, hr, by simp⟩), h _ (List.mem_flatMap.2 ⟨r, hr, by simp⟩)⟩
  unfold annoFrags
  apply clean_changeDiv ht
  have h1 : (annoSingle a.rows).all Frag.clean = true := by
    unfold annoSingle
    have : (a.rows.flatMap fun r => [tg "tr",
        tg "td class=\"const-index\"", .raw (natText r.index), tg "/td",
        tg "td class=\"const-value\"", .raw r.left, tg "/td", tg "/tr"]).all Frag.clean = true := by
      apply clean_flatMap
      intro r h
      have := (hr r h).1
      clean_all
    clean_all
  have h2 : (annoDual a.rows).all Frag.clean = true := by
    unfold annoDual
    have : (a.rows.flatMap fun r => [tg "tr",
        tg "td class=\"const-index\"", .raw (natText r.index), tg "/td",
        tg "td class=\"const-value\"", .raw r.left, tg "/td",
        tg (if r.changed then "td class=\"const-value is_changed\""
          else "td class=\"const-value is_unchanged\""), .raw r.right, tg "/td", tg "/tr"]).all
          Frag.clean = true := by
      apply clean_flatMap
      intro r h
      have h1 := (hr r h).1
      have h2 := (hr r h).2
      cases r.changed <;> simp only [if_true, if_false, Bool.false_eq_true] <;> clean_all
    clean_all
  cases a.verdict.changed <;> simp only [if_true, if_false, Bool.false_eq_true] <;> clean_all

theorem clean_subHeading {type label : String} (ht : (tg ("h2 id=\"" ++ type ++ "\"")).clean = true)
    (hl : (txt label).clean = true) (desc : Str) :
    (subHeading type label desc).all Frag.clean = true := by
  unfold subHeading; clean_all

theorem clean_pool (p : PoolView) (h : ∀ t ∈ p.raws, NoTag t) :
    (poolFrags p).all Frag.clean = true := by
  have hr : ∀ r ∈ p.rows, NoTag r.left.1 ∧ ∀ q, r.right = some q → NoTag q.1 := fun r hr =>
    ⟨h _ (List.mem_flatMap.2 ⟨r, hr, by simp⟩),
      fun q hq => h _ (List.mem_flatMap.2 ⟨r, hr, by simp [hq]⟩)⟩
  unfold poolFrags
  apply clean_changeDiv (by decide)
  have h0 := clean_subHeading (type := "ClassConstantPoolChange") (label := "Constant pool")
    (by decide +kernel) (by decide +kernel) p.desc
  have h1 : (poolSingle p.rows).all Frag.clean = true := by
    unfold poolSingle
    have : (p.rows.flatMap fun r => [tg "tr",
        tg "td class=\"const-index\"", .raw (natText r.index), tg "/td",
        tg "td class=\"const-type\"", .raw r.left.1, tg "/td",
        tg "td class=\"const-value\"", .esc r.left.2, tg "/td", tg "/tr"]).all Frag.clean = true := by
      apply clean_flatMap
      intro r h
      have := (hr r h).1
      clean_all
    clean_all
  have h2 : (poolDual p.rows).all Frag.clean = true := by
    unfold poolDual
    have : (p.rows.flatMap poolDualRow).all Frag.clean = true := by
      apply clean_flatMap
      intro r h
      have h1 := (hr r h).1
      have h2 := (hr r h).2
      unfold poolDualRow
      cases hq : r.right with
      | none => clean_all
      | some q =>
        have := h2 q hq
        clean_all
    clean_all
  cases p.verdict.changed <;> simp only [if_true, if_false, Bool.false_eq_true] <;> clean_all

theorem clean_code (c : CodeView) (h : ∀ t ∈ c.raws, NoTag t) :
    (codeFrags c).all Frag.clean = true := by
  unfold codeFrags
  apply clean_changeDiv (by decide)
  unfold plainDescription
  have h1 : codeHeadDual.all Frag.clean = true := by decide +kernel
  have h2 : codeHeadSingle.all Frag.clean = true := by decide +kernel
  cases ht : c.table with
  | none => clean_all
  | some rows =>
    have h3 : (codeFragRows rows).all Frag.clean = true := by
      unfold codeFragRows
      apply clean_flatMap
      intro r hr
      have : (r.flatMap fun c => [Frag.tag (cellTag c), .raw c.text, tg "/td"]).all Frag.clean
          = true := by
        apply clean_flatMap
        intro x hx
        have hx' : NoTag x.text := h _ (by
          unfold CodeView.raws
          rw [ht]
          exact List.mem_flatMap.2 ⟨r, hr, List.mem_map.2 ⟨x, hx, rfl⟩⟩)
        have := clean_cellTag x
        clean_all
      clean_all
    cases c.dual <;> simp only [if_true, if_false, Bool.false_eq_true] <;> clean_all

theorem clean_member (m : MemberView) (h : ∀ t ∈ m.raws, NoTag t) :
    (memberFrags m).all Frag.clean = true := by
  cases m with
  | field v n subs a b =>
    simp only [MemberView.raws, List.mem_append] at h
    apply clean_changeDiv (by decide)
    have h1 := clean_leftTable (clean_table fieldRows_raw subs fun t ht => h t (.inl (.inl ht)))
    have h2 := clean_anno (type := "FieldAnnotationsChange") (label := "Field runtime annotations")
      (by decide) (by decide +kernel) a fun t ht => h t (.inl (.inr ht))
    have h3 := clean_anno (type := "FieldInvisibleAnnotationsChange")
      (label := "Field runtime invisible annotations") (by decide) (by decide +kernel) b
      fun t ht => h t (.inr ht)
    unfold collectDiv
    clean_all
  | method v n subs a b c =>
    simp only [MemberView.raws, List.mem_append] at h
    apply clean_changeDiv (by decide)
    have h1 := clean_leftTable (clean_table methodRows_raw subs fun t ht => h t (.inl (.inl (.inl ht))))
    have h2 := clean_anno (type := "MethodAnnotationsChange") (label := "Method runtime annotations")
      (by decide) (by decide +kernel) a fun t ht => h t (.inl (.inl (.inr ht)))
    have h3 := clean_anno (type := "MethodInvisibleAnnotationsChange")
      (label := "Method runtime invisible annotations") (by decide) (by decide +kernel) b
      fun t ht => h t (.inl (.inr ht))
    have h4 := clean_code c fun t ht => h t (.inr ht)
    unfold collectDiv
    clean_all
  | methodAdded v n subs =>
    apply clean_changeDiv (by decide)
    have h1 := clean_table lonelyRows_raw subs (by simp [rawAt])
    clean_all
  | methodRemoved v n subs =>
    apply clean_changeDiv (by decide)
    have h1 := clean_leftTable (clean_table lonelyRows_raw subs (by simp [rawAt]))
    clean_all
  | fieldAdded v =>
    apply clean_changeDiv (by decide)
    unfold plainDescription
    clean_all
  | fieldRemoved v =>
    apply clean_changeDiv (by decide)
    unfold plainDescription
    clean_all

theorem clean_members {type label : String} (ht : type ∈ pageTypes)
    (h2 : (tg ("h2 id=\"" ++ type ++ "\"")).clean = true) (hl : (txt label).clean = true)
    (m : MembersView) (h : ∀ t ∈ m.kids.flatMap MemberView.raws, NoTag t) :
    (membersFrags type label m).all Frag.clean = true := by
  apply clean_changeDiv ht
  have h0 := clean_subHeading h2 hl m.desc
  have h1 : (m.kids.flatMap memberFrags).all Frag.clean = true :=
    clean_flatMap _ _ fun k hk => clean_member k fun t ht => h t (List.mem_flatMap.2 ⟨k, hk, ht⟩)
  unfold collectDiv
  split <;> clean_all

theorem clean_page (p : ClassPage) (h : ∀ t ∈ p.raws, NoTag t) :
    (classFrags p).all Frag.clean = true := by
  simp only [ClassPage.raws, List.mem_append] at h
  unfold classFrags
  have h1 : (infoFrags p.infoVerdict p.infoDesc p.info).all Frag.clean = true := by
    apply clean_changeDiv (by decide)
    have h0 := clean_subHeading (type := "ClassInfoChange") (label := "Class information")
      (by decide +kernel) (by decide +kernel) p.infoDesc
    have h1 := clean_leftTable (clean_table classRows_raw p.info fun t ht => h t (by simp [ht]))
    clean_all
  have h2 := clean_anno (type := "ClassAnnotationsChange") (label := "Class runtime annotations")
    (by decide) (by decide +kernel) p.annos fun t ht => h t (by simp [ht])
  have h3 := clean_anno (type := "ClassInvisibleAnnotationsChange")
    (label := "Class runtime invisible annotations")
    (by decide) (by decide +kernel) p.invisible fun t ht => h t (by simp [ht])
  have h4 := clean_pool p.pool fun t ht => h t (by simp [ht])
  have h5 := clean_members (type := "ClassFieldsChange") (label := "Fields") (by decide)
    (by decide +kernel) (by decide +kernel) p.fields fun t ht => h t (.inl (.inr ht))
  have h6 := clean_members (type := "ClassMethodsChange") (label := "Methods") (by decide)
    (by decide +kernel) (by decide +kernel) p.methods fun t ht => h t (.inr ht)
  clean_all

/-! ### The tags do not depend on the texts -/

theorem tags_subRow (f : Str → Str) (spec : RowSpec) (s : Sub) :
    fragTags (subRow spec (s.mapText f)) = fragTags (subRow spec s) := by
  rcases s with ⟨_ | _, _ | _, l, r⟩ <;>
    simp only [subRow, Sub.mapText, if_true, if_false, Bool.false_eq_true, fragTags_append,
      fragTags_tg, fragTags_txt, fragTags_text, fragTags]

theorem tags_subRows (f : Str → Str) (specs : List RowSpec) (subs : List Sub) :
    fragTags (subRows specs (subs.map (Sub.mapText f))) = fragTags (subRows specs subs) := by
  induction specs generalizing subs with
  | nil => rfl
  | cons spec specs ih =>
    cases subs with
    | nil => rfl
    | cons s subs => simp only [List.map_cons, subRows, fragTags_append, tags_subRow, ih]

theorem tags_changeDiv (type : String) (v : Verdict) (a : List Frag) :
    fragTags (changeDiv type v a) =
      ("div class=\"" ++ divClasses type v ++ "\"").toList :: fragTags a ++ ["/div".toList] := by
  simp only [changeDiv, fragTags_tg, List.cons_append, fragTags_append, fragTags]

theorem tags_leftTable (f : Str → Str) (specs : List RowSpec) (subs : List Sub) :
    fragTags (leftTable specs (subs.map (Sub.mapText f))) = fragTags (leftTable specs subs) := by
  simp only [leftTable, fragTags_append, tags_subRows]

theorem tags_anno (f : Str → Str) (type label : String) (a : AnnoView) :
    fragTags (annoFrags type label (a.mapText f)) = fragTags (annoFrags type label a) := by
  rcases a with ⟨⟨_ | _, ig⟩, rows⟩ <;>
    simp only [annoFrags, tags_changeDiv, AnnoView.mapText, fragTags_append]
  · simp only [if_false, Bool.false_eq_true, annoSingle, fragTags_append, fragTags_flatMap,
      List.flatMap_map, fragTags_tg, fragTags]
  · simp only [if_true, annoDual, fragTags_append, fragTags_flatMap, List.flatMap_map, fragTags_tg,
      fragTags]

theorem tags_subHeading (type label : String) (d d' : Str) :
    fragTags (subHeading type label d) = fragTags (subHeading type label d') := by
  simp only [subHeading, fragTags_tg, fragTags_txt, fragTags]

theorem tags_pool (f : Str → Str) (p : PoolView) :
    fragTags (poolFrags (p.mapText f)) = fragTags (poolFrags p) := by
  rcases p with ⟨⟨_ | _, ig⟩, d, rows⟩ <;>
    simp only [poolFrags, tags_changeDiv, PoolView.mapText, fragTags_append,
      tags_subHeading _ _ (f d) d]
  · simp only [if_false, Bool.false_eq_true, poolSingle, fragTags_append, fragTags_flatMap,
      List.flatMap_map, fragTags_tg, fragTags, PoolRow.mapText]
  · have hrow : ∀ r : PoolRow, fragTags (poolDualRow (r.mapText f)) = fragTags (poolDualRow r) := ?_
    · simp only [if_true, poolDual, fragTags_append, fragTags_flatMap, List.flatMap_map, hrow]
    intro r
    simp only [poolDualRow, PoolRow.mapText, fragTags_append, fragTags_tg, fragTags]
    congr 1
    cases r.right <;> simp only [Option.map, fragTags_tg, fragTags]

theorem tags_code (f : Str → Str) (c : CodeView) :
    fragTags (codeFrags (c.mapText f)) = fragTags (codeFrags c) := by
  simp only [codeFrags, tags_changeDiv, CodeView.mapText, fragTags_append]
  congr 4
  cases c.table with
  | none => rfl
  | some rows =>
    simp only [Option.map, fragTags_tg, fragTags_append, List.cons_append]
    congr 3
    simp only [codeFragRows, fragTags_flatMap, List.flatMap_map, fragTags_append, fragTags_tg,
      List.cons_append, fragTags, cellTag]

theorem tags_member (f : Str → Str) (m : MemberView) :
    fragTags (memberFrags (m.mapText f)) = fragTags (memberFrags m) := by
  cases m <;> simp only [MemberView.mapText, memberFrags, tags_changeDiv, fragTags_append, fragTags_tg,
    fragTags_txt, fragTags, tags_leftTable, tags_subRows, collectDiv, List.cons_append, tags_anno,
    tags_code]

theorem tags_members (f : Str → Str) (type label : String) (m : MembersView) :
    fragTags (membersFrags type label (m.mapText f)) = fragTags (membersFrags type label m) := by
  simp only [membersFrags, tags_changeDiv, MembersView.mapText, fragTags_append,
    tags_subHeading _ _ (f m.desc) m.desc, List.isEmpty_map]
  congr 3
  split
  · rfl
  · simp only [collectDiv, fragTags_tg, fragTags_append, List.cons_append, fragTags_flatMap,
      List.flatMap_map, tags_member]

theorem tags_page (f : Str → Str) (p : ClassPage) :
    fragTags (classFrags (p.mapText f)) = fragTags (classFrags p) := by
  simp only [classFrags, ClassPage.mapText, fragTags_append, infoFrags, tags_changeDiv,
    tags_subHeading _ _ (f p.infoDesc) p.infoDesc, tags_leftTable, tags_anno, tags_pool, tags_members,
    fragTags_tg, fragTags]

/-- The page with every text empty. -/
def ClassPage.blank (p : ClassPage) : ClassPage := p.mapText fun _ => []

/-- C157 as stated: the texts of a class do not change the tags of the report on it. -/
def C157_full : Prop := ∀ p : ClassPage, tagsOf p.html = tagsOf p.blank.html

theorem raws_blank (p : ClassPage) : ∀ t ∈ p.blank.raws, NoTag t := by
  have hs : ∀ idx (subs : List Sub), ∀ t ∈ rawAt idx (subs.map (Sub.mapText fun _ => [])), NoTag t := by
    intro idx subs t ht
    obtain ⟨i, _, h⟩ := List.mem_flatMap.1 ht
    simp only [List.getElem?_map] at h
    cases hi : subs[i]? <;> simp [hi, Sub.mapText] at h
    subst h
    simp [NoTag]
  have ha : ∀ a : AnnoView, ∀ t ∈ (a.mapText fun _ => []).raws, NoTag t := by
    intro a t ht
    simp only [AnnoView.raws, AnnoView.mapText, List.mem_flatMap, List.mem_map] at ht
    obtain ⟨_, ⟨r, _, rfl⟩, ht⟩ := ht
    simp at ht
    simp [NoTag, ht]
  have hc : ∀ c : CodeView, ∀ t ∈ (c.mapText fun _ => []).raws, NoTag t := by
    intro c t ht
    unfold CodeView.raws CodeView.mapText at ht
    cases hc : c.table <;> simp only [hc, Option.map, List.mem_flatMap, List.mem_map,
      List.not_mem_nil] at ht
    obtain ⟨_, ⟨r, _, rfl⟩, ht⟩ := ht
    obtain ⟨_, hx, rfl⟩ := ht
    obtain ⟨x, _, rfl⟩ := List.mem_map.1 hx
    simp [NoTag]
  have hm : ∀ ms : List MemberView, ∀ t ∈ (ms.map (MemberView.mapText fun _ => [])).flatMap
      MemberView.raws, NoTag t := by
    intro ms t ht
    obtain ⟨m, hm, ht⟩ := List.mem_flatMap.1 ht
    obtain ⟨m, _, rfl⟩ := List.mem_map.1 hm
    cases m <;> simp only [MemberView.mapText, MemberView.raws, List.mem_append, List.not_mem_nil] at ht
    · rcases ht with (h | h) | h
      · exact hs _ _ t h
      · exact ha _ t h
      · exact ha _ t h
    · rcases ht with ((h | h) | h) | h
      · exact hs _ _ t h
      · exact ha _ t h
      · exact ha _ t h
      · exact hc _ t h
  intro t ht
  simp only [ClassPage.raws, ClassPage.blank, ClassPage.mapText, List.mem_append] at ht
  rcases ht with ((((h | h) | h) | h) | h) | h
  · exact hs _ _ t h
  · exact ha _ t h
  · exact ha _ t h
  · simp only [PoolView.raws, PoolView.mapText, List.mem_flatMap, List.mem_map] at h
    obtain ⟨_, ⟨r, _, rfl⟩, h⟩ := h
    unfold PoolRow.mapText at h
    cases hr : r.right <;> simp [hr] at h <;> simp [NoTag, h]
  · exact hm _ t h
  · exact hm _ t h

/-- C157, as far as it holds: if no text that is put out unescaped has a `<`, the tags are those of
the page without texts. All other texts (names of members, generic signatures, values of constants
and constant fields, added and removed methods, descriptions, the title) may be anything. -/
theorem C157_partial (p : ClassPage) (h : ∀ t ∈ p.raws, '<' ∉ t) :
    tagsOf p.html = tagsOf p.blank.html := by
  unfold ClassPage.html
  rw [tagsOf_render (clean_page p h), tagsOf_render (clean_page _ (raws_blank p))]
  exact (tags_page _ p).symm

/-! ### Balance -/

/-- Opening and closing by the pieces. -/
def runFrags : List Frag → List Str → Option (List Str)
  | [], st => some st
  | f :: fs, st =>
    match f.kind with
    | none => runFrags fs st
    | some (.start n) => runFrags fs (n :: st)
    | some (.stop n) =>
      match st with
      | [] => none
      | m :: st => if n = m then runFrags fs st else none

theorem runFrags_eq (fs : List Frag) (st : List Str) :
    runFrags fs st = closeTags ((fragTags fs).map tagKind) st := by
  induction fs generalizing st with
  | nil => rfl
  | cons f fs ih =>
    cases f with
    | esc s => simp only [runFrags, Frag.kind, fragTags, ih]
    | raw s => simp only [runFrags, Frag.kind, fragTags, ih]
    | tag s =>
      simp only [runFrags, Frag.kind, fragTags, List.map_cons]
      cases tagKind s with
      | start n => simp only [closeTags, ih]
      | stop n => cases st <;> simp only [closeTags, ih]

theorem wellFormed_iff (p : ClassPage) (h : ∀ t ∈ p.raws, NoTag t) :
    WellFormed p.html ↔ runFrags (classFrags p) [] = some [] := by
  unfold WellFormed ClassPage.html
  rw [tagsOf_render (clean_page p h), runFrags_eq]

theorem run_append (a b : List Frag) (st : List Str) :
    runFrags (a ++ b) st = (runFrags a st).bind (runFrags b) := by
  induction a generalizing st with
  | nil => rfl
  | cons f a ih =>
    simp only [List.cons_append, runFrags]
    cases f.kind with
    | none => exact ih _
    | some k =>
      cases k with
      | start n => exact ih _
      | stop n =>
        cases st with
        | nil => rfl
        | cons m st =>
          simp only
          split
          · exact ih _
          · rfl

/-- Every element opened is closed, and no other. -/
def Neutral (fs : List Frag) : Prop := ∀ st, runFrags fs st = some st

/-- Something is closed that is not open, whatever was open before. -/
def Dead (fs : List Frag) : Prop := ∀ st, runFrags fs st = none

theorem Neutral.append {a b : List Frag} (ha : Neutral a) (hb : Neutral b) : Neutral (a ++ b) := by
  intro st
  rw [run_append, ha st]
  exact hb st

theorem Dead.append_left {a : List Frag} (ha : Dead a) (b : List Frag) : Dead (a ++ b) := by
  intro st
  rw [run_append, ha st]
  rfl

theorem Dead.append_right (a : List Frag) {b : List Frag} (hb : Dead b) : Dead (a ++ b) := by
  intro st
  rw [run_append]
  cases runFrags a st with
  | none => rfl
  | some st => exact hb st

theorem neutral_nil : Neutral [] := fun _ => rfl

theorem neutral_flatMap {α : Type} (f : α → List Frag) (l : List α) (h : ∀ x ∈ l, Neutral (f x)) :
    Neutral (l.flatMap f) := by
  induction l with
  | nil => exact neutral_nil
  | cons x l ih => exact (h x (by simp)).append (ih fun y hy => h y (by simp [hy]))

theorem dead_flatMap {α : Type} (f : α → List Frag) {l : List α} {x : α} (hx : x ∈ l)
    (h : Dead (f x)) : Dead (l.flatMap f) := by
  obtain ⟨a, b, rfl⟩ := List.append_of_mem hx
  rw [List.flatMap_append, List.flatMap_cons]
  exact Dead.append_right _ (h.append_left _)

/-- Going through fixed pieces. -/
macro "run_all" : tactic => `(tactic|
  simp only [List.cons_append, List.nil_append, runFrags, txt_kind, raw_kind, esc_kind, text_kind,
    cell_kind, List.append_assoc, run_append, if_true, if_false, Bool.false_eq_true, Option.bind,
    List.cons.injEq, reduceCtorEq, Char.reduceEq, and_true, true_and, and_false, false_and, *, tag0_kind, tag1_kind, tag2_kind, tag3_kind, tag4_kind, tag5_kind, tag6_kind, tag7_kind, tag8_kind, tag9_kind, tag10_kind, tag11_kind, tag12_kind, tag13_kind, tag14_kind, tag15_kind, tag16_kind, tag17_kind, tag18_kind, tag19_kind, tag20_kind, tag21_kind, tag22_kind, tag23_kind, tag24_kind, tag25_kind, tag26_kind, tag27_kind, tag28_kind, tag29_kind, tag30_kind, tag31_kind, tag32_kind, tag33_kind, tag34_kind, tag35_kind, tag36_kind, tag37_kind, tag38_kind, tag39_kind, tag40_kind])

theorem subRow_neutral (spec : RowSpec) (s : Sub)
    (h : spec.closes = true ∨ s.changed = true ∨ s.shows = false) : Neutral (subRow spec s) := by
  intro st
  unfold subRow
  split
  · cases spec.marks <;> run_all
  · rename_i hc
    split
    · rename_i hs
      have : spec.closes = true := by
        rcases h with h | h | h
        · exact h
        · exact absurd h hc
        · simp [h] at hs
      run_all
    · rfl

theorem subRow_dead (spec : RowSpec) (s : Sub)
    (h1 : spec.closes = false) (h2 : s.changed = false) (h3 : s.shows = true) :
    Dead (subRow spec s) := by
  intro st
  unfold subRow
  run_all

theorem subRows_neutral (specs : List RowSpec) (subs : List Sub)
    (h : ∀ (i : Nat) spec s, specs[i]? = some spec → subs[i]? = some s →
      spec.closes = true ∨ s.changed = true ∨ s.shows = false) : Neutral (subRows specs subs) := by
  induction specs generalizing subs with
  | nil => exact neutral_nil
  | cons spec specs ih =>
    cases subs with
    | nil => exact neutral_nil
    | cons s subs =>
      exact (subRow_neutral spec s (h 0 spec s rfl rfl)).append
        (ih subs fun i sp s h1 h2 => h (i + 1) sp s (by simpa using h1) (by simpa using h2))

theorem subRows_dead (specs : List RowSpec) (subs : List Sub) (i : Nat) {spec : RowSpec} {s : Sub}
    (hi : specs[i]? = some spec) (hj : subs[i]? = some s) (h1 : spec.closes = false)
    (h2 : s.changed = false) (h3 : s.shows = true) : Dead (subRows specs subs) := by
  induction specs generalizing subs i with
  | nil => simp at hi
  | cons sp specs ih =>
    cases subs with
    | nil => simp at hj
    | cons s' subs =>
      cases i with
      | zero =>
        simp only [List.getElem?_cons_zero, Option.some.injEq] at hi hj
        subst hi hj
        exact (subRow_dead sp s' h1 h2 h3).append_left _
      | succ i => exact Dead.append_right _ (ih subs i (by simpa using hi) (by simpa using hj))

/-- The first two properties (name and type) are changed, or not shown. -/
def TidySubs (subs : List Sub) : Prop :=
  ∀ i < 2, ∀ s, subs[i]? = some s → s.changed = true ∨ s.shows = false

theorem rows_closed {specs : List RowSpec} (h : specs.all RowSpec.closes = true) (subs : List Sub) :
    Neutral (subRows specs subs) :=
  subRows_neutral specs subs fun i spec _ h1 _ =>
    .inl (List.all_eq_true.1 h spec (List.mem_of_getElem? h1))

theorem rows_tidy {specs : List RowSpec} (h : (specs.drop 2).all RowSpec.closes = true)
    {subs : List Sub} (ht : TidySubs subs) : Neutral (subRows specs subs) := by
  refine subRows_neutral specs subs fun i spec s h1 h2 => ?_
  by_cases hi : i < 2
  · exact .inr (ht i hi s h2)
  · refine .inl (List.all_eq_true.1 h spec (List.mem_of_getElem? (i := i - 2) ?_))
    rw [List.getElem?_drop, ← h1]
    congr 1
    omega

theorem rows_untidy {specs : List RowSpec}
    (h : ∀ i < 2, ∃ spec, specs[i]? = some spec ∧ spec.closes = false)
    {subs : List Sub} (ht : ¬ TidySubs subs) : Dead (subRows specs subs) := by
  unfold TidySubs at ht
  simp only [Classical.not_forall] at ht
  obtain ⟨i, hi, s, hs, hn⟩ := ht
  obtain ⟨spec, h1, h2⟩ := h i hi
  simp only [not_or, Bool.not_eq_true, Bool.not_eq_false] at hn
  exact subRows_dead specs subs i h1 hs h2 hn.1 hn.2

theorem fieldRows_open : ∀ i < 2, ∃ spec, fieldRows[i]? = some spec ∧ spec.closes = false := by
  intro i hi
  match i, hi with
  | 0, _ => exact ⟨_, rfl, rfl⟩
  | 1, _ => exact ⟨_, rfl, rfl⟩

theorem methodRows_open : ∀ i < 2, ∃ spec, methodRows[i]? = some spec ∧ spec.closes = false := by
  intro i hi
  match i, hi with
  | 0, _ => exact ⟨_, rfl, rfl⟩
  | 1, _ => exact ⟨_, rfl, rfl⟩

theorem neutral_leftTable {specs : List RowSpec} {subs : List Sub}
    (h : Neutral (subRows specs subs)) : Neutral (leftTable specs subs) := by
  unfold Neutral at h
  intro st
  unfold leftTable
  run_all

theorem dead_leftTable {specs : List RowSpec} {subs : List Sub}
    (h : Dead (subRows specs subs)) : Dead (leftTable specs subs) :=
  (Dead.append_right _ h).append_left _

theorem neutral_changeDiv {type : String} (ht : type ∈ pageTypes) (v : Verdict) {body : List Frag}
    (h : Neutral body) : Neutral (changeDiv type v body) := by
  unfold Neutral at h
  have := div_kind ht v
  intro st
  unfold changeDiv
  run_all

theorem dead_changeDiv (type : String) (v : Verdict) {body : List Frag} (h : Dead body) :
    Dead (changeDiv type v body) := by
  unfold changeDiv
  rw [← List.singleton_append]
  exact (Dead.append_right _ h).append_left _

theorem neutral_anno {type : String} (ht : type ∈ pageTypes) (label : String) (a : AnnoView) :
    Neutral (annoFrags type label a) := by
  apply neutral_changeDiv ht
  have h1 : ∀ st, runFrags (a.rows.flatMap fun r => [tg "tr",
      tg "td class=\"const-index\"", .raw (natText r.index), tg "/td",
      tg "td class=\"const-value\"", .raw r.left, tg "/td", tg "/tr"]) st = some st := by
    refine neutral_flatMap _ _ fun r _ st => ?_
    run_all
  have h2 : ∀ st, runFrags (a.rows.flatMap fun r => [tg "tr",
      tg "td class=\"const-index\"", .raw (natText r.index), tg "/td",
      tg "td class=\"const-value\"", .raw r.left, tg "/td",
      tg (if r.changed then "td class=\"const-value is_changed\""
        else "td class=\"const-value is_unchanged\""), .raw r.right, tg "/td", tg "/tr"]) st =
        some st := by
    refine neutral_flatMap _ _ fun r _ st => ?_
    rcases r with ⟨i, l, r, _ | _⟩ <;> run_all
  intro st
  unfold annoDual annoSingle
  cases a.verdict.changed <;> run_all

theorem neutral_subHeading {type : String} (ht : (tg ("h2 id=\"" ++ type ++ "\"")).kind =
    some (.start ['h', '2'])) (label : String) (desc : Str) :
    Neutral (subHeading type label desc) := by
  intro st
  unfold subHeading
  run_all

theorem run_poolRows (rows : List PoolRow) (st : List Str) :
    runFrags (rows.flatMap poolDualRow) st =
      some (List.replicate (rows.countP fun r => r.right.isNone) ['t', 'r'] ++ st) := by
  induction rows generalizing st with
  | nil => rfl
  | cons r rows ih =>
    rw [List.flatMap_cons, run_append]
    cases hr : r.right with
    | none =>
      have : runFrags (poolDualRow r) st = some (['t', 'r'] :: st) := by
        unfold poolDualRow
        run_all
      rw [this, Option.bind, ih]
      simp [hr, List.replicate_succ']
    | some q =>
      have : runFrags (poolDualRow r) st = some st := by
        unfold poolDualRow
        run_all
      rw [this, Option.bind, ih]
      simp [hr]

theorem neutral_pool (p : PoolView)
    (h : p.verdict.changed = true → ∀ r ∈ p.rows, r.right.isSome = true) : Neutral (poolFrags p) := by
  apply neutral_changeDiv (by decide)
  have h0 := neutral_subHeading (h2_kinds "ClassConstantPoolChange" (by decide)) "Constant pool" p.desc
  have h1 : ∀ st, runFrags (poolSingle p.rows) st = some st := by
    have : ∀ st, runFrags (p.rows.flatMap fun r => [tg "tr",
        tg "td class=\"const-index\"", .raw (natText r.index), tg "/td",
        tg "td class=\"const-type\"", .raw r.left.1, tg "/td",
        tg "td class=\"const-value\"", .esc r.left.2, tg "/td", tg "/tr"]) st = some st := by
      refine neutral_flatMap _ _ fun r _ st => ?_
      run_all
    intro st
    unfold poolSingle
    run_all
  unfold Neutral at h0
  intro st
  cases hc : p.verdict.changed
  · run_all
  · have h2 : ∀ st, runFrags (poolDual p.rows) st = some st := by
      have hz : (p.rows.countP fun r => r.right.isNone) = 0 := by
        rw [List.countP_eq_zero]
        intro r hr
        have := h hc r hr
        cases hq : r.right <;> simp [hq] at this ⊢
      have : ∀ st, runFrags (p.rows.flatMap poolDualRow) st = some st := by
        intro st
        rw [run_poolRows, hz]
        rfl
      intro st
      unfold poolDual
      run_all
    run_all

theorem dead_pool (p : PoolView) (hc : p.verdict.changed = true)
    (h : ¬ ∀ r ∈ p.rows, r.right.isSome = true) : Dead (poolFrags p) := by
  apply dead_changeDiv
  rw [if_pos hc]
  refine Dead.append_left (Dead.append_right _ ?_) _
  intro st
  have hz : (p.rows.countP fun r => r.right.isNone) ≠ 0 := by
    rw [Ne, List.countP_eq_zero]
    intro hn
    apply h
    intro r hr
    have := hn r hr
    cases hq : r.right <;> simp_all
  obtain ⟨n, hn⟩ := Nat.exists_eq_succ_of_ne_zero hz
  have hrun := run_poolRows p.rows
  rw [hn] at hrun
  simp only [List.replicate_succ, List.cons_append] at hrun
  unfold poolDual
  run_all

theorem neutral_code (c : CodeView) : Neutral (codeFrags c) := by
  apply neutral_changeDiv (by decide)
  unfold plainDescription codeHeadDual codeHeadSingle
  intro st
  cases ht : c.table with
  | none => run_all
  | some rows =>
    have h3 : ∀ st, runFrags (codeFragRows rows) st = some st := by
      unfold codeFragRows
      refine neutral_flatMap _ _ fun r _ st => ?_
      have : ∀ st, runFrags (r.flatMap fun c => [Frag.tag (cellTag c), .raw c.text, tg "/td"]) st =
          some st := by
        refine neutral_flatMap _ _ fun x _ st => ?_
        run_all
      run_all
    cases c.dual <;> run_all

/-! ### Members -/

/-- The report on a member is well-formed: it is no added method, and if it is a changed member,
its name and its type are changed or not shown. -/
def MemberView.Tidy : MemberView → Prop
  | .field _ _ subs _ _ => TidySubs subs
  | .method _ _ subs _ _ _ => TidySubs subs
  | .methodAdded _ _ _ => False
  | _ => True

/-- The number of elements that the report on a member closes too many. -/
def MemberView.excess : MemberView → Nat
  | .methodAdded _ _ _ => 1
  | _ => 0

/-- Where only `div`s are open, `n` of them are closed, if that works at all. -/
def Drops (fs : List Frag) (n : Nat) : Prop :=
  ∀ k st, runFrags fs (List.replicate k ['d', 'i', 'v']) = some st →
    n ≤ k ∧ st = List.replicate (k - n) ['d', 'i', 'v']

theorem Neutral.drops {fs : List Frag} (h : Neutral fs) : Drops fs 0 := by
  intro k st hr
  rw [h] at hr
  simp only [Option.some.injEq] at hr
  simp [hr]

theorem Dead.drops {fs : List Frag} (h : Dead fs) (n : Nat) : Drops fs n := by
  intro k st hr
  rw [h] at hr
  simp at hr

theorem Drops.append {a b : List Frag} {m n : Nat} (ha : Drops a m) (hb : Drops b n) :
    Drops (a ++ b) (m + n) := by
  intro k st hr
  rw [run_append] at hr
  cases h1 : runFrags a (List.replicate k ['d', 'i', 'v']) with
  | none => simp [h1] at hr
  | some st1 =>
    obtain ⟨h2, rfl⟩ := ha k st1 h1
    rw [h1] at hr
    obtain ⟨h3, rfl⟩ := hb _ _ hr
    exact ⟨by omega, by congr 1; omega⟩

/-- In a `div`. -/
theorem Drops.wrap {f : Frag} (hf : f.kind = some (.start ['d', 'i', 'v'])) {body : List Frag} {n : Nat}
    (hb : Drops body n) : Drops (f :: body ++ [tg "/div"]) n := by
  intro k st hr
  simp only [List.cons_append, runFrags, hf, run_append] at hr
  cases h1 : runFrags body (['d', 'i', 'v'] :: List.replicate k ['d', 'i', 'v']) with
  | none => simp [h1] at hr
  | some st1 =>
    rw [← List.replicate_succ] at h1
    obtain ⟨h2, rfl⟩ := hb (k + 1) st1 h1
    rw [List.replicate_succ] at h1
    rw [h1] at hr
    by_cases hk : n = k + 1
    · subst hk
      simp only [Option.bind, Nat.sub_self, List.replicate_zero] at hr
      revert hr
      run_all
      simp
    · have e : k + 1 - n = (k - n) + 1 := by omega
      rw [e, List.replicate_succ] at hr
      refine ⟨by omega, ?_⟩
      revert hr
      run_all
      intro hr
      simpa using hr.symm

theorem neutral_member {m : MemberView} (h : m.Tidy) : Neutral (memberFrags m) := by
  cases m with
  | field v n subs a b =>
    apply neutral_changeDiv (by decide)
    have h1 : ∀ st, _ := neutral_leftTable (rows_tidy (specs := fieldRows) (by decide) h)
    have h2 : ∀ st, _ := neutral_anno (type := "FieldAnnotationsChange") (by decide)
      "Field runtime annotations" a
    have h3 : ∀ st, _ := neutral_anno (type := "FieldInvisibleAnnotationsChange") (by decide)
      "Field runtime invisible annotations" b
    unfold collectDiv
    intro st
    run_all
  | method v n subs a b c =>
    apply neutral_changeDiv (by decide)
    have h1 : ∀ st, _ := neutral_leftTable (rows_tidy (specs := methodRows) (by decide) h)
    have h2 : ∀ st, _ := neutral_anno (type := "MethodAnnotationsChange") (by decide)
      "Method runtime annotations" a
    have h3 : ∀ st, _ := neutral_anno (type := "MethodInvisibleAnnotationsChange") (by decide)
      "Method runtime invisible annotations" b
    have h4 : ∀ st, _ := neutral_code c
    unfold collectDiv
    intro st
    run_all
  | methodAdded v n subs => exact absurd h id
  | methodRemoved v n subs =>
    apply neutral_changeDiv (by decide)
    have h1 : ∀ st, _ := neutral_leftTable (rows_closed (specs := lonelyRows) (by decide) subs)
    intro st
    run_all
  | fieldAdded v =>
    apply neutral_changeDiv (by decide)
    unfold plainDescription
    intro st
    run_all
  | fieldRemoved v =>
    apply neutral_changeDiv (by decide)
    unfold plainDescription
    intro st
    run_all

theorem drops_added (v : Verdict) (n : Str) (subs : List Sub) :
    Drops (memberFrags (.methodAdded v n subs)) 1 := by
  apply Drops.wrap (div_kind (by decide) v)
  have h1 : ∀ st, _ := rows_closed (specs := lonelyRows) (by decide) subs
  intro k st
  cases k with
  | zero => run_all; simp
  | succ k =>
    rw [List.replicate_succ]
    run_all
    intro h
    simpa using h.symm

theorem dead_member {m : MemberView} (h : ¬ m.Tidy) (he : m.excess = 0) : Dead (memberFrags m) := by
  cases m with
  | field v n subs a b =>
    exact dead_changeDiv _ _ ((Dead.append_right _
      (dead_leftTable (rows_untidy fieldRows_open h))).append_left _)
  | method v n subs a b c =>
    exact dead_changeDiv _ _ ((Dead.append_right _
      (dead_leftTable (rows_untidy methodRows_open h))).append_left _)
  | methodAdded v n subs => simp [MemberView.excess] at he
  | methodRemoved v n subs => exact absurd trivial h
  | fieldAdded v => exact absurd trivial h
  | fieldRemoved v => exact absurd trivial h

theorem drops_member (m : MemberView) : Drops (memberFrags m) m.excess := by
  by_cases h : m.Tidy
  · have := (neutral_member h).drops
    cases m <;> first | exact this | exact absurd h id
  · by_cases he : m.excess = 0
    · exact (dead_member h he).drops _
    · cases m with
      | methodAdded v n subs => exact drops_added v n subs
      | _ => exact absurd rfl he

/-- The elements that the reports on members close too many. -/
def excessOf (ms : List MemberView) : Nat := (ms.map MemberView.excess).sum

theorem drops_kids (ms : List MemberView) : Drops (ms.flatMap memberFrags) (excessOf ms) := by
  induction ms with
  | nil => exact neutral_nil.drops
  | cons m ms ih => exact (drops_member m).append ih

theorem drops_members {type : String} (ht : type ∈ pageTypes)
    (h2 : (tg ("h2 id=\"" ++ type ++ "\"")).kind = some (.start ['h', '2'])) (label : String)
    (m : MembersView) : Drops (membersFrags type label m) (excessOf m.kids) := by
  apply Drops.wrap (div_kind ht _)
  rw [← Nat.zero_add (excessOf _)]
  apply (neutral_subHeading h2 label m.desc).drops.append
  split
  · rename_i h
    rw [List.isEmpty_iff.1 h]
    exact neutral_nil.drops
  · exact Drops.wrap tag14_kind (drops_kids _)

theorem neutral_members {type : String} (ht : type ∈ pageTypes)
    (h2 : (tg ("h2 id=\"" ++ type ++ "\"")).kind = some (.start ['h', '2'])) (label : String)
    (m : MembersView) (h : ∀ k ∈ m.kids, k.Tidy) : Neutral (membersFrags type label m) := by
  apply neutral_changeDiv ht
  have h1 : ∀ st, _ := neutral_flatMap memberFrags m.kids fun k hk => neutral_member (h k hk)
  have h0 : ∀ st, _ := neutral_subHeading h2 label m.desc
  unfold collectDiv
  intro st
  cases hk : m.kids.isEmpty <;> run_all

theorem dead_members (type label : String) (m : MembersView) {k : MemberView} (hk : k ∈ m.kids)
    (h : ¬ k.Tidy) (he : k.excess = 0) : Dead (membersFrags type label m) := by
  apply dead_changeDiv
  apply Dead.append_right
  have : m.kids.isEmpty = false := by
    cases hm : m.kids <;> simp_all
  rw [this]
  simp only [if_false, Bool.false_eq_true, collectDiv]
  rw [← List.singleton_append]
  exact (Dead.append_right _ (dead_flatMap _ hk (dead_member h he))).append_left _

/-! ### C158 -/

/-- A changed constant pool has no constant that is the same on both sides, there is no added
method, and of changed fields and methods the name and the type are changed (or not shown). -/
def ClassPage.Tidy (p : ClassPage) : Prop :=
  (p.pool.verdict.changed = true → ∀ r ∈ p.pool.rows, r.right.isSome = true) ∧
  (∀ k ∈ p.fields.kids, k.Tidy) ∧ (∀ k ∈ p.methods.kids, k.Tidy)

theorem neutral_info (v : Verdict) (desc : Str) (subs : List Sub) : Neutral (infoFrags v desc subs) := by
  apply neutral_changeDiv (by decide)
  exact (neutral_subHeading (h2_kinds "ClassInfoChange" (by decide)) _ _).append
    (neutral_leftTable (rows_closed (by decide) subs))

theorem run_page_tidy {p : ClassPage} (h : p.Tidy) : runFrags (classFrags p) [] = some [] := by
  have h1 : ∀ st, _ := neutral_info p.infoVerdict p.infoDesc p.info
  have h2 : ∀ st, _ := neutral_anno (type := "ClassAnnotationsChange") (by decide)
    "Class runtime annotations" p.annos
  have h3 : ∀ st, _ := neutral_anno (type := "ClassInvisibleAnnotationsChange") (by decide)
    "Class runtime invisible annotations" p.invisible
  have h4 : ∀ st, _ := neutral_pool p.pool h.1
  have h5 : ∀ st, _ := neutral_members (type := "ClassFieldsChange") (by decide)
    (h2_kinds _ (by decide)) "Fields" p.fields h.2.1
  have h6 : ∀ st, _ := neutral_members (type := "ClassMethodsChange") (by decide)
    (h2_kinds _ (by decide)) "Methods" p.methods h.2.2
  unfold classFrags
  run_all

theorem excess_le {k : MemberView} {ms : List MemberView} (h : k ∈ ms) : k.excess ≤ excessOf ms := by
  induction ms with
  | nil => simp at h
  | cons m ms ih =>
    simp only [excessOf, List.map_cons, List.sum_cons]
    rcases List.mem_cons.1 h with rfl | h
    · omega
    · have := ih h
      unfold excessOf at this
      omega

theorem tidy_of_run {p : ClassPage} (h : runFrags (classFrags p) [] = some []) : p.Tidy := by
  have hdead : ¬ Dead (classFrags p) := by
    intro hx
    rw [hx] at h
    simp at h
  -- nothing is closed too many
  have hex : excessOf p.fields.kids = 0 ∧ excessOf p.methods.kids = 0 := by
    have hd : Drops (classFrags p) (excessOf p.fields.kids + excessOf p.methods.kids) := by
      have hh : Neutral [tg "h1", .esc p.title, tg "/h1"] := by
        intro st; run_all
      have h1 := (neutral_info p.infoVerdict p.infoDesc p.info).append
        ((neutral_anno (type := "ClassAnnotationsChange") (by decide) "Class runtime annotations"
          p.annos).append (neutral_anno (type := "ClassInvisibleAnnotationsChange") (by decide)
          "Class runtime invisible annotations" p.invisible))
      have h4 : Drops (poolFrags p.pool) 0 := by
        by_cases hp : p.pool.verdict.changed = true → ∀ r ∈ p.pool.rows, r.right.isSome = true
        · exact (neutral_pool _ hp).drops
        · simp only [Classical.not_imp] at hp
          exact (dead_pool _ hp.1 hp.2).drops _
      have h5 := drops_members (type := "ClassFieldsChange") (by decide)
        (h2_kinds _ (by decide)) "Fields" p.fields
      have h6 := drops_members (type := "ClassMethodsChange") (by decide)
        (h2_kinds _ (by decide)) "Methods" p.methods
      have hall := hh.drops.append (Drops.wrap tag35_kind
        (h1.drops.append (h4.append (h5.append h6))))
      simp only [Nat.zero_add] at hall
      have e : classFrags p = [tg "h1", .esc p.title, tg "/h1"] ++
          (tg "div id=\"report-details\"" :: ((infoFrags p.infoVerdict p.infoDesc p.info ++
            (annoFrags "ClassAnnotationsChange" "Class runtime annotations" p.annos ++
              annoFrags "ClassInvisibleAnnotationsChange" "Class runtime invisible annotations"
                p.invisible)) ++ (poolFrags p.pool ++
            (membersFrags "ClassFieldsChange" "Fields" p.fields ++
              membersFrags "ClassMethodsChange" "Methods" p.methods))) ++ [tg "/div"]) := by
        simp only [classFrags, List.cons_append, List.nil_append, List.append_assoc]
      rw [e]
      exact hall
    have := (hd 0 [] h).1
    omega
  have he0 : ∀ k, (k ∈ p.fields.kids ∨ k ∈ p.methods.kids) → k.excess = 0 := by
    intro k hk
    rcases hk with hk | hk
    · have := excess_le hk
      omega
    · have := excess_le hk
      omega
  refine ⟨fun hc => Classical.byContradiction fun hn => ?_, fun k hk =>
    Classical.byContradiction fun hn => ?_, fun k hk => Classical.byContradiction fun hn => ?_⟩
  · exact hdead ((((Dead.append_right _ (dead_pool p.pool hc hn)).append_left _).append_left _).append_left _)
  · exact hdead (((Dead.append_right _ (dead_members "ClassFieldsChange" "Fields" p.fields hk hn
      (he0 k (.inl hk)))).append_left _).append_left _)
  · exact hdead ((Dead.append_right _ (dead_members "ClassMethodsChange" "Methods" p.methods hk hn
      (he0 k (.inr hk)))).append_left _)

/-- C158 as stated: the report on a class is well-formed. -/
def C158_full : Prop := ∀ p : ClassPage, WellFormed p.html

/-- C158: which reports are well-formed, where no text spoils the tags (C157). -/
theorem C158_exact (p : ClassPage) (h : ∀ t ∈ p.raws, '<' ∉ t) : WellFormed p.html ↔ p.Tidy := by
  rw [wellFormed_iff p h]
  exact ⟨tidy_of_run, run_page_tidy⟩

/-- C158, as far as it holds. -/
theorem C158_partial (p : ClassPage) (h : ∀ t ∈ p.raws, '<' ∉ t)
    (hp : p.pool.verdict.changed = true → ∀ r ∈ p.pool.rows, r.right.isSome = true)
    (hf : ∀ k ∈ p.fields.kids, k.Tidy) (hm : ∀ k ∈ p.methods.kids, k.Tidy) : WellFormed p.html :=
  (C158_exact p h).2 ⟨hp, hf, hm⟩

/-- C158: a report with an added method is not well-formed; nor is one with a changed field or
method whose name is the same on both sides, as the names of those always are. -/
theorem C158_members_fail (p : ClassPage) (h : ∀ t ∈ p.raws, '<' ∉ t) {k : MemberView}
    (hk : k ∈ p.fields.kids ∨ k ∈ p.methods.kids)
    (hbad : (∃ v n subs, k = .methodAdded v n subs) ∨
      ∃ s subs, s.changed = false ∧ s.shows = true ∧
        ((∃ v n a b, k = .field v n (s :: subs) a b) ∨ ∃ v n a b c, k = .method v n (s :: subs) a b c)) :
    ¬ WellFormed p.html := by
  rw [C158_exact p h]
  intro ht
  have hk : k.Tidy := hk.elim (ht.2.1 k) (ht.2.2 k)
  rcases hbad with ⟨v, n, subs, rfl⟩ | ⟨s, subs, h1, h2, ⟨v, n, a, b, rfl⟩ | ⟨v, n, a, b, c, rfl⟩⟩
  · exact hk
  · have := hk 0 (by omega) s rfl
    simp [h1, h2] at this
  · have := hk 0 (by omega) s rfl
    simp [h1, h2] at this

/-! ### Where they fail -/

/-- The report on a class of this name, without changes and members. -/
def namedPage (name : Str) : ClassPage where
  title := "JavaClassReport ".toList ++ name
  infoVerdict := ⟨false, false⟩
  infoDesc := "Class information unchanged".toList
  info := [⟨false, true, name, name⟩, ⟨false, true, "0x0021: public".toList, "0x0021: public".toList⟩]
  annos := ⟨⟨false, false⟩, []⟩
  invisible := ⟨⟨false, false⟩, []⟩
  pool := ⟨⟨false, false⟩, "Constant pool unaltered".toList, [⟨1, ("Utf8".toList, "<b>".toList), none⟩]⟩
  fields := ⟨⟨false, false⟩, "Fields unchanged".toList, []⟩
  methods := ⟨⟨false, false⟩, "Methods unchanged".toList, []⟩

theorem C157_full_fails : ¬ C157_full := by
  intro h
  exact absurd (h (namedPage "<b>".toList)) (by decide +kernel)

/-- The same with a changed method of the same name. -/
def methodPage (k : MemberView) : ClassPage :=
  { namedPage "A".toList with methods := ⟨⟨true, false⟩, "Methods changed".toList, [k]⟩ }

theorem C158_full_fails : ¬ C158_full := by
  intro h
  exact absurd (h (methodPage (.methodAdded ⟨true, false⟩ "f():void".toList [])))
    (by decide +kernel)

/-- C157: whatever tag the name of a class begins with is a tag of the report on it. -/
theorem C157_class_name (p : ClassPage) {s : Sub} {subs : List Sub} (hi : p.info = s :: subs)
    (hs : s.changed = true ∨ s.shows = true) {t u : Str} (hn : s.left = '<' :: t ++ '>' :: u)
    (ht : tagOk false t = true) : t ∈ tagsOf p.html := by
  have hpre : ∃ a b, classFrags p = a ++ .raw s.left :: b ∧ a.all Frag.clean = true := by
    have h0 := clean_subHeading (type := "ClassInfoChange") (label := "Class information")
      h2_info (labels_clean _ (by decide)) p.infoDesc
    have hd := (divTag_ok "ClassInfoChange" (by decide) p.infoVerdict).1
    have hrow : ∃ a b, subRow ⟨"Class Name", false, false, true⟩ s = a ++ .raw s.left :: b ∧
        a.all Frag.clean = true := by
      have hl : (txt "Class Name").clean = true := (classRows_raw 0 (by decide) _ rfl).1
      cases hc : s.changed
      · have hsh : s.shows = true := by simpa [hc] using hs
        refine ⟨[tg "tr", tg "th", txt "Class Name", tg "/th", tg "td"], [tg "/td", tg "/tr"], ?_, ?_⟩
        · simp [subRow, hc, hsh, RowSpec.text]
        · clean_all
      · refine ⟨[tg "tr", tg "th rowspan=\"2\"", txt "Class Name", tg "/th", tg "td"],
          [tg "/td", tg "/tr", tg "tr", tg "td", .raw s.right, tg "/td", tg "/tr"], ?_, ?_⟩
        · simp [subRow, hc, RowSpec.text]
        · clean_all
    obtain ⟨a, b, e, ha⟩ := hrow
    refine ⟨[tg "h1", .esc p.title, tg "/h1", tg "div id=\"report-details\"",
      tg ("div class=\"" ++ divClasses "ClassInfoChange" p.infoVerdict ++ "\"")] ++
      subHeading "ClassInfoChange" "Class information" p.infoDesc ++
      [tg "div class=\"details\"", tg "div class=\"lrdata\"", tg "table class=\"left-headers\""] ++ a,
      ?rest, ?eq, ?clean⟩
    case clean => clean_all
    case eq =>
      simp only [classFrags, infoFrags, changeDiv, leftTable, classRows, hi, subRows, e,
        List.append_assoc, List.cons_append, List.nil_append]
      rfl
  obtain ⟨a, b, e, ha⟩ := hpre
  unfold ClassPage.html tagsOf
  rw [e, renderFrags_append, tagsOf_render_append a ha, renderFrags, hn]
  simp only [List.cons_append, List.append_assoc]
  rw [tagsFrom, if_pos rfl, tagsFrom_tag t false [] _ ht]
  simp

/-- C157 for an entry of an archive or a distribution: its name changes no tag. -/
theorem C157_entry (type : String) (v : Verdict)
    (ht : tagOk false ("div class=\"" ++ divClasses type v ++ "\"").toList = true) (entry : Str) :
    tagsOf (renderFrags (contentFrags type v entry)) =
      [("div class=\"" ++ divClasses type v ++ "\"").toList, "/div".toList] := by
  have h1 : (tg ("div class=\"" ++ divClasses type v ++ "\"")).clean = true := by
    unfold tg Frag.clean; exact ht
  have hc : (contentFrags type v entry).all Frag.clean = true := by
    unfold contentFrags changeDiv
    clean_all
  rw [tagsOf_render hc]
  simp only [contentFrags, changeDiv, fragTags_tg, List.cons_append, List.nil_append, fragTags]

theorem tagOk_href {entry reportName : Str} (h1 : '"' ∉ entry) (h2 : '"' ∉ reportName) :
    tagOk false ("a href=\"".toList ++ detailsHref entry reportName ++ ['"']) = true := by
  have hq : ∀ s : Str, '"' ∉ s → ∀ t, tagOk true (s ++ t) = tagOk true t := by
    intro s hs t
    induction s with
    | nil => rfl
    | cons c s ih =>
      simp only [List.mem_cons, not_or] at hs
      rw [List.cons_append, tagOk, if_neg (by simp), if_neg (fun e => hs.1 e.symm), ih hs.2]
  have e0 : "a href=\"".toList = ['a', ' ', 'h', 'r', 'e', 'f', '=', '"'] := rfl
  have e1 : '"' ∉ "/".toList := by decide
  have e2 : '"' ∉ ".html".toList := by decide
  unfold detailsHref
  rw [e0]
  simp only [List.cons_append, List.nil_append, List.append_assoc]
  simp only [tagOk, Char.reduceEq, false_and, if_false, if_true, Bool.not_false]
  rw [hq _ h1, hq _ e1, hq _ h2, hq _ e2]
  rfl

/-- C157 for the link to a sub-report: without `"` in the names, the tags are these, whatever else
is in the name of the entry. -/
theorem C157_link (classes : String) (ht : tagOk false ("div class=\"" ++ classes ++ "\"").toList = true)
    {entry reportName : Str} (h1 : '"' ∉ entry) (h2 : '"' ∉ reportName) :
    tagsOf (renderFrags (squashedFrags classes entry reportName)) =
      [("div class=\"" ++ classes ++ "\"").toList, "span class=\"moreinfo\"".toList,
        "a href=\"".toList ++ (entry ++ "/".toList ++ reportName ++ ".html".toList) ++ "\"".toList,
        "/a".toList, "/span".toList, "/div".toList] := by
  have h3 : (tg ("div class=\"" ++ classes ++ "\"")).clean = true := by
    unfold tg Frag.clean; exact ht
  have h4 : (Frag.tag ("a href=\"".toList ++ detailsHref entry reportName ++ ['"'])).clean = true := by
    unfold Frag.clean; exact tagOk_href h1 h2
  have hc : (squashedFrags classes entry reportName).all Frag.clean = true := by
    unfold squashedFrags
    clean_all
  rw [tagsOf_render hc]
  simp only [squashedFrags, fragTags_tg, fragTags_txt, fragTags, detailsHref]
  rfl

/-- C157: an entry can put any tag into the page by its link. -/
theorem C157_link_fails (classes : String)
    (hd : tagOk false ("div class=\"" ++ classes ++ "\"").toList = true) (reportName : Str) {t : Str}
    (ht : tagOk false t = true) :
    ∃ entry, t ∈ tagsOf (renderFrags (squashedFrags classes entry reportName)) := by
  refine ⟨'"' :: '>' :: '<' :: t ++ ['>'], ?_⟩
  have h3 : (tg ("div class=\"" ++ classes ++ "\"")).clean = true := by
    unfold tg Frag.clean; exact hd
  have hpre : ([tg ("div class=\"" ++ classes ++ "\""), .esc ('"' :: '>' :: '<' :: t ++ ['>']),
      tg "span class=\"moreinfo\"", txt "["]).all Frag.clean = true := by
    clean_all
  have e : squashedFrags classes ('"' :: '>' :: '<' :: t ++ ['>']) reportName =
      [tg ("div class=\"" ++ classes ++ "\""), .esc ('"' :: '>' :: '<' :: t ++ ['>']),
      tg "span class=\"moreinfo\"", txt "["] ++
      .tag ("a href=\"".toList ++ detailsHref ('"' :: '>' :: '<' :: t ++ ['>']) reportName ++ ['"']) ::
        [txt "details", tg "/a", txt "]", tg "/span", tg "/div"] := rfl
  unfold tagsOf
  rw [e, renderFrags_append, tagsOf_render_append _ hpre, renderFrags]
  have e0 : "a href=\"".toList = ['a', ' ', 'h', 'r', 'e', 'f', '=', '"'] := rfl
  unfold detailsHref
  rw [e0]
  simp only [List.cons_append, List.nil_append, List.append_assoc]
  simp only [tagsFrom, Char.reduceEq, false_and, if_false, if_true, Bool.not_false, Bool.not_true,
    and_self, and_true]
  rw [tagsFrom_tag t false [] _ ht]
  simp

/-- A page with an added and a removed method, and one without members. -/
example : WellFormed (namedPage "p.A".toList).html ∧
    ¬ WellFormed (methodPage (.methodAdded ⟨true, false⟩ "f():void".toList [])).html ∧
    WellFormed (methodPage (.methodRemoved ⟨true, false⟩ "<init>():void".toList
      [⟨false, true, "<init>".toList, []⟩])).html ∧
    ¬ WellFormed (methodPage (.method ⟨true, false⟩ "f():void".toList
      [⟨false, true, "f".toList, "f".toList⟩] ⟨⟨false, false⟩, []⟩ ⟨⟨false, false⟩, []⟩
      ⟨⟨true, false⟩, false, none⟩)).html := by decide +kernel

/-- A class named like a tag. -/
example : "script".toList ∈ tagsOf (namedPage "<script>x".toList).html ∧
    "script".toList ∉ tagsOf (namedPage "script".toList).html ∧
    tagsOf (renderFrags (squashedFrags "Change" "\"><b>".toList "R".toList)) =
      ["div class=\"Change\"".toList, "span class=\"moreinfo\"".toList, "a href=\"\"".toList,
        "b".toList, "/a".toList, "/span".toList, "/div".toList] := by decide +kernel

end Javatools
