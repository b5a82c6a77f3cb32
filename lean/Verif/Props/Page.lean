import Verif.Model.Page
import Verif.Spec.Page
import Verif.Props.Markup
import Verif.Props.Html
/-
C168: the HTML page of a report on an archive or a distribution is well-formed XML.
C169: the names in it add no elements and no attributes to the page.
-/
namespace Javatools

/-! ### What the claims speak of -/

/-- The classes of all changes. -/
def changeNames : List String := changeClasses.map Prod.fst

mutual
/-- The classes of a change and of those below it. -/
def Tree.classes : Tree → List String
  | .node type _ _ _ kids => type :: treesClasses kids
  | .squashed origclass .. => [origclass]
def treesClasses : List Tree → List String
  | [] => []
  | t :: ts => t.classes ++ treesClasses ts
end

mutual
/-- The names that a change and those below it put into links. -/
def Tree.links : Tree → List Str
  | .node _ _ _ _ kids => treesLinks kids
  | .squashed _ _ entry reportName => [entry, reportName]
def treesLinks : List Tree → List Str
  | [] => []
  | t :: ts => t.links ++ treesLinks ts
end

/-- The addresses of a page have no quotes, the names of the breadcrumbs no `<`. -/
structure PageFrame.Plain (f : PageFrame) : Prop where
  styles : ∀ s ∈ f.stylesheets, '"' ∉ s
  scripts : ∀ s ∈ f.javascripts, '"' ∉ s
  crumbs : ∀ c ∈ f.crumbs, '"' ∉ c.1 ∧ '"' ∉ c.2 ∧ '<' ∉ c.2

/-- The elements that the templates have. -/
def pageElements : List Str := ["html".toList, "head".toList, "title".toList, "link".toList,
  "script".toList, "body".toList, "div".toList, "ul".toList, "li".toList, "a".toList, "h1".toList,
  "h2".toList, "span".toList]

/-- The attributes that the templates have. -/
def pageAttributes : List Str := ["xmlns".toList, "xml:lang".toList, "lang".toList, "rel".toList,
  "type".toList, "href".toList, "src".toList, "id".toList, "class".toList]

/-- A tag is of one of the elements, with some of the attributes. -/
def Allowed (t : Str) : Prop :=
  (match xmlTag t with
    | .decl => True
    | .empty n | .start n | .stop n => n ∈ pageElements) ∧
  (xmlTag t = .decl ∨ ∀ a ∈ attrsFrom [] false t, a ∈ pageAttributes)

instance (t : Str) : Decidable (Allowed t) := by
  unfold Allowed
  cases xmlTag t <;> infer_instance

/-! ### Names in quotes -/

/-- Whether quotes are open after this. -/
def quotedAfter : Bool → Str → Bool
  | q, [] => q
  | q, c :: s => quotedAfter (if c = '"' then !q else q) s

theorem tagOk_hole (pre : Str) {q : Bool} (hp : quotedAfter q pre = true) {s : Str} (hs : '"' ∉ s)
    (post : Str) : tagOk q (pre ++ (s ++ post)) = tagOk q (pre ++ post) := by
  induction pre generalizing q with
  | nil =>
    simp only [quotedAfter] at hp
    subst hp
    simp only [List.nil_append]
    induction s with
    | nil => rfl
    | cons c s ih =>
      simp only [List.mem_cons, not_or] at hs
      rw [List.cons_append, tagOk, if_neg (by simp), if_neg (fun e => hs.1 e.symm), ih hs.2]
  | cons c pre ih =>
    rw [quotedAfter] at hp
    rw [List.cons_append, List.cons_append, tagOk, tagOk, ih hp]

theorem attrs_hole (pre : Str) {acc : Str} {q : Bool} (hp : quotedAfter q pre = true) {s : Str}
    (hs : '"' ∉ s) (post : Str) :
    attrsFrom acc q (pre ++ (s ++ post)) = attrsFrom acc q (pre ++ post) := by
  induction pre generalizing q acc with
  | nil =>
    simp only [quotedAfter] at hp
    subst hp
    simp only [List.nil_append]
    induction s with
    | nil => rfl
    | cons c s ih =>
      simp only [List.mem_cons, not_or] at hs
      rw [List.cons_append, attrsFrom, if_neg (fun e => hs.1 e.symm), ih hs.2]
  | cons c pre ih =>
    rw [quotedAfter] at hp
    rw [List.cons_append, List.cons_append]
    cases q with
    | true =>
      simp only [attrsFrom]
      by_cases h : c = '"'
      · rw [if_pos h] at hp ⊢
        rw [if_pos h]
        exact ih hp
      · rw [if_neg h] at hp ⊢
        rw [if_neg h]
        exact ih hp
    | false =>
      simp only [attrsFrom]
      by_cases h : c = '"'
      · rw [if_pos h] at hp ⊢
        rw [if_pos h]
        exact ih hp
      · rw [if_neg h] at hp ⊢
        rw [if_neg h, ih hp, ih hp]

theorem tagName_hole (pre : Str) (h : ' ' ∈ pre) (x : Str) : tagName (pre ++ x) = tagName pre := by
  unfold tagName
  induction pre with
  | nil => simp at h
  | cons c pre ih =>
    rw [List.cons_append, List.takeWhile_cons, List.takeWhile_cons]
    by_cases hc : (decide (c ≠ ' ') && decide (c ≠ '\n')) = true
    · rw [if_pos hc, if_pos hc]
      rcases List.mem_cons.1 h with e | h
      · subst e; simp at hc
      · rw [ih h]
    · rw [if_neg hc, if_neg hc]

theorem xmlTag_hole {c : Char} (pre : Str) (hc : c ≠ '/') (hp : ' ' ∈ c :: pre) (s : Str) {post : Str}
    (h : post ≠ []) : xmlTag (c :: pre ++ (s ++ post)) = xmlTag (c :: pre ++ post) := by
  have e1 : (c :: pre ++ (s ++ post)).head? = some c := rfl
  have e2 : (c :: pre ++ post).head? = some c := rfl
  have e3 : (c :: pre ++ (s ++ post)).getLast? = (c :: pre ++ post).getLast? := by
    obtain ⟨l, x, rfl⟩ : ∃ l x, post = l ++ [x] :=
      ⟨post.dropLast, post.getLast h, (List.dropLast_concat_getLast h).symm⟩
    rw [← List.append_assoc, ← List.append_assoc, ← List.append_assoc, List.getLast?_concat,
      List.getLast?_concat]
  unfold xmlTag
  rw [e1, e2, e3, tagName_hole _ hp, tagName_hole _ hp]
  have : ¬ (some c = some '/') := fun e => hc (Option.some.inj e)
  rw [if_neg this, if_neg this]

/-! ### Running over the pieces -/

/-- A tag that is read as it was meant, of a known element and with known attributes, with `b` not
one of them twice. -/
def TagFine (b : Bool) (t : Str) : Prop :=
  tagOk false t = true ∧ (b = true → AttrsOk t) ∧ Allowed t

instance (b : Bool) (t : Str) : Decidable (TagFine b t) := by unfold TagFine; infer_instance

/-- What a name in quotes does not change. -/
theorem fine_hole {b : Bool} {c : Char} {pre s post : Str} (hc : c ≠ '/') (hp : ' ' ∈ c :: pre)
    (hq : quotedAfter false (c :: pre) = true) (hs : '"' ∉ s) (h : post ≠ []) {x : XmlTag}
    (hf : TagFine b (c :: pre ++ post)) (hx : xmlTag (c :: pre ++ post) = x) :
    TagFine b (c :: pre ++ s ++ post) ∧ xmlTag (c :: pre ++ s ++ post) = x := by
  rw [List.append_assoc]
  refine ⟨?_, (xmlTag_hole pre hc hp s h).trans hx⟩
  unfold TagFine AttrsOk Allowed at hf ⊢
  rw [tagOk_hole _ hq hs, attrs_hole _ hq hs, xmlTag_hole pre hc hp s h]
  exact hf

/-- The pieces are read as they were meant, their tags are fine, and with the elements `st` open
before, `st'` are open after them. -/
structure Runs (b : Bool) (fs : List Frag) (st st' : List Str) : Prop where
  clean : fs.all Frag.clean = true
  fine : ∀ t ∈ fragTags fs, TagFine b t
  close : ∀ ts, closeXml ((fragTags fs).map xmlTag ++ ts) st = closeXml ts st'

theorem Runs.nil (b : Bool) (st : List Str) : Runs b [] st st := ⟨rfl, by simp [fragTags], fun _ => rfl⟩

theorem Runs.append {b : Bool} {x y : List Frag} {s t u : List Str} (h1 : Runs b x s t)
    (h2 : Runs b y t u) : Runs b (x ++ y) s u := by
  refine ⟨by rw [List.all_append, h1.clean, h2.clean]; rfl, fun z hz => ?_, fun ts => ?_⟩
  · rw [fragTags_append, List.mem_append] at hz
    exact hz.elim (h1.fine z) (h2.fine z)
  · rw [fragTags_append, List.map_append, List.append_assoc, h1.close, h2.close]

theorem Runs.flatMap {α : Type} {b : Bool} {f : α → List Frag} {l : List α} {st : List Str}
    (h : ∀ x ∈ l, Runs b (f x) st st) : Runs b (l.flatMap f) st st := by
  induction l with
  | nil => exact .nil b st
  | cons x l ih =>
    rw [List.flatMap_cons]
    exact (h x (List.mem_cons_self ..)).append (ih fun y hy => h y (List.mem_cons_of_mem _ hy))

theorem Runs.tag {b : Bool} {t : Str} {fs : List Frag} {s u v : List Str} (hf : TagFine b t)
    (hx : ∀ ts, closeXml (xmlTag t :: ts) s = closeXml ts u) (h : Runs b fs u v) :
    Runs b (.tag t :: fs) s v := by
  refine ⟨by rw [List.all_cons, h.clean, Bool.and_true]; exact hf.1, fun z hz => ?_, fun ts => ?_⟩
  · rw [fragTags] at hz
    rcases List.mem_cons.1 hz with rfl | hz
    · exact hf
    · exact h.fine z hz
  · rw [fragTags, List.map_cons, List.cons_append, hx, h.close]

/-- A start tag. -/
theorem Runs.start {b : Bool} {t : Str} (n : Str) {fs : List Frag} {s u : List Str}
    (hf : TagFine b t ∧ xmlTag t = .start n) (h : Runs b fs (n :: s) u) : Runs b (.tag t :: fs) s u :=
  .tag hf.1 (fun ts => by rw [hf.2, closeXml]) h

/-- An end tag. -/
theorem Runs.stop {b : Bool} {t : Str} {n : Str} {fs : List Frag} {s u : List Str}
    (hf : TagFine b t ∧ xmlTag t = .stop n) (h : Runs b fs s u) : Runs b (.tag t :: fs) (n :: s) u :=
  .tag hf.1 (fun ts => by rw [hf.2, closeXml, if_pos rfl]) h

/-- A declaration. -/
theorem Runs.decl {b : Bool} {t : Str} {fs : List Frag} {s u : List Str}
    (hf : TagFine b t ∧ xmlTag t = .decl) (h : Runs b fs s u) : Runs b (.tag t :: fs) s u :=
  .tag hf.1 (fun ts => by rw [hf.2, closeXml]) h

/-- An empty element. -/
theorem Runs.empty {b : Bool} {t : Str} {n : Str} {fs : List Frag} {s u : List Str}
    (hf : TagFine b t ∧ xmlTag t = .empty n) (h : Runs b fs s u) : Runs b (.tag t :: fs) s u :=
  .tag hf.1 (fun ts => by rw [hf.2, closeXml]) h

theorem Runs.esc {b : Bool} {x : Str} {fs : List Frag} {s u : List Str} (h : Runs b fs s u) :
    Runs b (.esc x :: fs) s u :=
  ⟨by rw [List.all_cons, h.clean]; rfl, by rw [fragTags]; exact h.fine,
    by rw [fragTags]; exact h.close⟩

theorem Runs.raw {b : Bool} {x : Str} {fs : List Frag} {s u : List Str} (hx : '<' ∉ x)
    (h : Runs b fs s u) : Runs b (.raw x :: fs) s u :=
  ⟨by rw [List.all_cons, h.clean, Bool.and_true]; exact clean_raw hx, by rw [fragTags]; exact h.fine,
    by rw [fragTags]; exact h.close⟩

/-- What a page that runs is. -/
theorem Runs.ok {fs : List Frag} (h : Runs true fs [] []) : XmlOk (renderFrags fs) := by
  unfold XmlOk
  rw [tagsOf_render h.clean]
  refine ⟨?_, fun t ht => (h.fine t ht).2.1 rfl⟩
  have := h.close []
  rw [List.append_nil] at this
  rw [this, closeXml]

theorem Runs.allowed {b : Bool} {fs : List Frag} {s u : List Str} (h : Runs b fs s u) :
    ∀ t ∈ tagsOf (renderFrags fs), Allowed t := by
  rw [tagsOf_render h.clean]
  exact fun t ht => (h.fine t ht).2.2

/-! ### The changes run -/

theorem changeNames_plain : ∀ c ∈ changeNames, '"' ∉ c.toList := by decide +kernel

theorem div_fine (b : Bool) {classes : String} (h : '"' ∉ classes.toList) :
    TagFine b ("div class=\"" ++ classes ++ "\"").toList ∧
      xmlTag ("div class=\"" ++ classes ++ "\"").toList = .start "div".toList := by
  rw [String.toList_append, String.toList_append]
  have e : "div class=\"".toList = 'd' :: "iv class=\"".toList := by decide +kernel
  rw [e]
  exact fine_hole (by decide) (by decide +kernel) (by decide +kernel) h (by decide +kernel)
    (by cases b <;> decide +kernel) (by decide +kernel)

theorem a_fine (b : Bool) {s : Str} (h : '"' ∉ s) :
    TagFine b ("a href=\"".toList ++ s ++ "\"".toList) ∧
      xmlTag ("a href=\"".toList ++ s ++ "\"".toList) = .start "a".toList := by
  have e : "a href=\"".toList = 'a' :: " href=\"".toList := by decide +kernel
  rw [e]
  exact fine_hole (by decide) (by decide +kernel) (by decide +kernel) h (by decide +kernel)
    (by cases b <;> decide +kernel) (by decide +kernel)

theorem style_fine (b : Bool) {s : Str} (h : '"' ∉ s) :
    TagFine b (styleLink s) ∧ xmlTag (styleLink s) = .empty "link".toList := by
  have hf : ∀ b, TagFine b ('l' :: "ink rel=\"stylesheet\" type=\"text/css\" href=\"".toList ++ "\" /".toList) := by decide +kernel
  have hx : xmlTag ('l' :: "ink rel=\"stylesheet\" type=\"text/css\" href=\"".toList ++ "\" /".toList) = .empty "link".toList := by decide +kernel
  have h1 : ' ' ∈ 'l' :: "ink rel=\"stylesheet\" type=\"text/css\" href=\"".toList := by decide +kernel
  have h2 : quotedAfter false ('l' :: "ink rel=\"stylesheet\" type=\"text/css\" href=\"".toList) = true := by decide +kernel
  have h3 : "\" /".toList ≠ [] := by decide +kernel
  have e : "link rel=\"stylesheet\" type=\"text/css\" href=\"".toList = 'l' :: "ink rel=\"stylesheet\" type=\"text/css\" href=\"".toList := by decide +kernel
  unfold styleLink
  rw [e]
  generalize "ink rel=\"stylesheet\" type=\"text/css\" href=\"".toList = pre at *
  generalize "\" /".toList = post at *
  exact fine_hole (by decide) h1 h2 h h3 (hf b) hx

theorem script_fine (b : Bool) {s : Str} (h : '"' ∉ s) :
    TagFine b (scriptTag s) ∧ xmlTag (scriptTag s) = .start "script".toList := by
  have hf : ∀ b, TagFine b ('s' :: "cript type=\"text/javascript\" src=\"".toList ++ "\"".toList) := by decide +kernel
  have hx : xmlTag ('s' :: "cript type=\"text/javascript\" src=\"".toList ++ "\"".toList) = .start "script".toList := by decide +kernel
  have h1 : ' ' ∈ 's' :: "cript type=\"text/javascript\" src=\"".toList := by decide +kernel
  have h2 : quotedAfter false ('s' :: "cript type=\"text/javascript\" src=\"".toList) = true := by decide +kernel
  have h3 : "\"".toList ≠ [] := by decide +kernel
  have e : "script type=\"text/javascript\" src=\"".toList = 's' :: "cript type=\"text/javascript\" src=\"".toList := by decide +kernel
  unfold scriptTag
  rw [e]
  generalize "cript type=\"text/javascript\" src=\"".toList = pre at *
  generalize "\"".toList = post at *
  exact fine_hole (by decide) h1 h2 h h3 (hf b) hx

theorem fixed_tag {t : Str} {x : XmlTag} (h : TagFine true t ∧ xmlTag t = x) (b : Bool) :
    TagFine b t ∧ xmlTag t = x := ⟨⟨h.1.1, fun _ => h.1.2.1 rfl, h.1.2.2⟩, h.2⟩

theorem divClasses_plain {type : String} (h : '"' ∉ type.toList) (v : Verdict) :
    '"' ∉ (divClasses type v).toList := by
  unfold divClasses
  rw [String.toList_append, String.toList_append, List.mem_append, List.mem_append]
  have h1 : '"' ∉ "Change ".toList := by decide +kernel
  have h2 : '"' ∉ (if v.changed then (if v.ignored then " is_changed is_ignored" else " is_changed")
      else " is_unchanged").toList := by
    cases v.changed <;> cases v.ignored <;> decide +kernel
  simp [h, h1, h2]

theorem runs_description (b : Bool) (template label entry : Str) (st : List Str) :
    Runs b (descriptionFrags template label entry) st st := by
  unfold descriptionFrags
  split
  · exact .start "div".toList (fixed_tag (by decide +kernel) b) <| .raw (by decide +kernel) <|
      .stop (fixed_tag (by decide +kernel) b) <| .nil ..
  · split
    · exact .esc (.nil ..)
    · exact .start "div".toList (fixed_tag (by decide +kernel) b) <| .esc <|
        .stop (fixed_tag (by decide +kernel) b) <| .nil ..

mutual
theorem runs_tree (b : Bool) (t : Tree) (hc : ∀ c ∈ t.classes, '"' ∉ c.toList)
    (hl : ∀ s ∈ t.links, '"' ∉ s) (st : List Str) : Runs b (treeFrags t) st st := by
  match t with
  | .node type v label entry kids =>
    rw [Tree.classes] at hc
    rw [Tree.links] at hl
    rw [treeFrags, changeDiv]
    refine .start "div".toList (div_fine b (divClasses_plain
      (hc _ (List.mem_cons_self ..)) v)) ?_
    refine Runs.append (t := "div".toList :: st) ((runs_description b _ label entry _).append ?_)
      (.stop (fixed_tag (by decide +kernel) b) (.nil ..))
    split
    · exact .nil ..
    · rw [collectDiv]
      exact .start "div".toList (fixed_tag (by decide +kernel) b) <|
        (runs_trees b kids (fun c h => hc c (List.mem_cons_of_mem _ h)) hl _).append <|
        .stop (fixed_tag (by decide +kernel) b) (.nil ..)
  | .squashed origclass v entry reportName =>
    rw [Tree.classes] at hc
    rw [Tree.links] at hl
    rw [treeFrags, squashedFrags]
    have hn : '"' ∉ ("SquashedChange " ++ origclass).toList := by
      rw [String.toList_append, List.mem_append]
      have h1 : '"' ∉ "SquashedChange ".toList := by decide +kernel
      have h2 := hc origclass (List.mem_cons_self ..)
      simp [h1, h2]
    have hr : '"' ∉ detailsHref entry reportName := by
      unfold detailsHref
      have h1 : '"' ∉ "/".toList := by decide +kernel
      have h2 : '"' ∉ ".html".toList := by decide +kernel
      have h3 := hl entry (by simp)
      have h4 := hl reportName (by simp)
      simp only [List.mem_append, not_or]
      exact ⟨⟨⟨h3, h1⟩, h4⟩, h2⟩
    exact .start "div".toList (div_fine b (divClasses_plain hn v)) <| .esc <|
      .start "span".toList (fixed_tag (by decide +kernel) b) <| .raw (by decide +kernel) <|
      .start "a".toList (a_fine b hr) <| .raw (by decide +kernel) <|
      .stop (fixed_tag (by decide +kernel) b) <| .raw (by decide +kernel) <|
      .stop (fixed_tag (by decide +kernel) b) <| .stop (fixed_tag (by decide +kernel) b) <| .nil ..

theorem runs_trees (b : Bool) (ts : List Tree) (hc : ∀ c ∈ treesClasses ts, '"' ∉ c.toList)
    (hl : ∀ s ∈ treesLinks ts, '"' ∉ s) (st : List Str) : Runs b (treesFrags ts) st st := by
  match ts with
  | [] => rw [treesFrags]; exact .nil ..
  | t :: ts =>
    rw [treesClasses] at hc
    rw [treesLinks] at hl
    rw [treesFrags]
    exact (runs_tree b t (fun c h => hc c (List.mem_append_left _ h))
        (fun s h => hl s (List.mem_append_left _ h)) st).append
      (runs_trees b ts (fun c h => hc c (List.mem_append_right _ h))
        (fun s h => hl s (List.mem_append_right _ h)) st)
end

theorem mem_treesClasses {ts : List Tree} {c : String} :
    c ∈ treesClasses ts ↔ ∃ t ∈ ts, c ∈ t.classes := by
  induction ts with
  | nil => simp [treesClasses]
  | cons t ts ih => rw [treesClasses, List.mem_append, ih]; simp

theorem mem_treesLinks {ts : List Tree} {s : Str} : s ∈ treesLinks ts ↔ ∃ t ∈ ts, s ∈ t.links := by
  induction ts with
  | nil => simp [treesLinks]
  | cons t ts ih => rw [treesLinks, List.mem_append, ih]; simp

theorem headingLabel_plain (type : String) : '<' ∉ (headingLabel type).toList := by
  unfold headingLabel
  split
  · rename_i p hp
    have := List.mem_of_find?_eq_some hp
    clear hp
    revert p
    decide +kernel
  · decide +kernel

/-- The groups run. -/
theorem runs_groups (b : Bool) {orig : Tree → String} {entry : Tree → Str} {order : List String}
    {children : List Tree} (hc : ∀ c ∈ treesClasses children, '"' ∉ c.toList)
    (hl : ∀ s ∈ treesLinks children, '"' ∉ s) (st : List Str) :
    Runs b ((reportGroups Tree.type orig entry "SquashedChange" order children).flatMap groupFrags)
      st st := by
  refine .flatMap fun g hg => ?_
  obtain ⟨h, ts⟩ := g
  have hm := (C153_shown Tree.type orig entry "SquashedChange" order children hg).1
  rw [groupFrags]
  have h1 := runs_trees b ts
    (fun c h => by
      obtain ⟨t, ht, h⟩ := mem_treesClasses.1 h
      exact hc c (mem_treesClasses.2 ⟨t, (hm t ht).1, h⟩))
    (fun s h => by
      obtain ⟨t, ht, h⟩ := mem_treesLinks.1 h
      exact hl s (mem_treesLinks.2 ⟨t, (hm t ht).1, h⟩)) ("div".toList :: st)
  exact Runs.append (Runs.append
      (.start "div".toList (fixed_tag (by decide +kernel) b) <|
        .start "h2".toList (fixed_tag (by decide +kernel) b) <| .raw (headingLabel_plain h) <|
        .stop (fixed_tag (by decide +kernel) b) (.nil ..)) h1)
    (.stop (fixed_tag (by decide +kernel) b) (.nil ..))

/-! ### The frame runs -/

theorem crumb_plain {c : Str × Str} (h1 : '"' ∉ c.1) (h2 : '"' ∉ c.2) : '"' ∉ crumbHref c := by
  have h3 : '"' ∉ ".html".toList := by decide +kernel
  unfold crumbHref pathJoin
  grind

/-- The frame, around details that run; with jQuery, one attribute comes twice. -/
theorem runs_page {b : Bool} {f : PageFrame} (hf : f.Plain) (hj : b = true → f.noJquery = true)
    {title : String} (ht : f.title = txt title) (hn : '<' ∉ title.toList) {details : List Frag}
    (hd : ∀ st, Runs b details st st) : Runs b (pageFrags f details) [] [] := by
  have h0 : Runs b prologue [] ["html".toList] :=
    .decl (fixed_tag (by decide +kernel) b) <| .decl (fixed_tag (by decide +kernel) b) <|
      .start "html".toList (fixed_tag (by decide +kernel) b) (.nil ..)
  have h1 : ∀ st, Runs b (headFrags f) st st := by
    intro st
    rw [headFrags, ht]
    refine Runs.append (t := "head".toList :: st) (Runs.append (t := "head".toList :: st)
      (Runs.append (t := "head".toList :: st) (Runs.append (t := "head".toList :: st) ?_ ?_) ?_) ?_) ?_
    · exact .start "head".toList (fixed_tag (by decide +kernel) b) <|
        .start "title".toList (fixed_tag (by decide +kernel) b) <| .raw hn <|
        .stop (fixed_tag (by decide +kernel) b) (.nil ..)
    · have e : f.stylesheets.map (fun s => Frag.tag (styleLink s)) =
          f.stylesheets.flatMap fun s => [.tag (styleLink s)] := by
        induction f.stylesheets with
        | nil => rfl
        | cons x l ih => rw [List.map_cons, List.flatMap_cons, ih]; rfl
      rw [e]
      exact .flatMap fun s hs => .empty (style_fine b (hf.styles s hs)) (.nil ..)
    · cases hb : f.noJquery with
      | true => exact .nil ..
      | false =>
        cases b with
        | true => rw [hj rfl] at hb; cases hb
        | false =>
          exact .start "script".toList (by decide +kernel) <| .stop (by decide +kernel) (.nil ..)
    · exact .flatMap fun s hs => .start "script".toList (script_fine b (hf.scripts s hs)) <|
        .stop (fixed_tag (by decide +kernel) b) (.nil ..)
    · exact .stop (fixed_tag (by decide +kernel) b) (.nil ..)
  have h2 : ∀ st, Runs b (headingFrags f) st st := by
    intro st
    rw [headingFrags, ht]
    refine Runs.append (t := "ul".toList :: "div".toList :: st)
      (Runs.append (t := "ul".toList :: "div".toList :: st) ?_ ?_) ?_
    · exact .start "div".toList (fixed_tag (by decide +kernel) b) <|
        .start "ul".toList (fixed_tag (by decide +kernel) b) (.nil ..)
    · refine .flatMap fun c hc => ?_
      obtain ⟨h3, h4, h5⟩ := hf.crumbs c hc
      exact .start "li".toList (fixed_tag (by decide +kernel) b) <|
        .start "a".toList (a_fine b (crumb_plain h3 h4)) <| .raw h5 <|
        .stop (fixed_tag (by decide +kernel) b) <| .stop (fixed_tag (by decide +kernel) b) (.nil ..)
    · exact .start "li".toList (fixed_tag (by decide +kernel) b) <| .raw hn <|
        .stop (fixed_tag (by decide +kernel) b) <| .stop (fixed_tag (by decide +kernel) b) <|
        .start "h1".toList (fixed_tag (by decide +kernel) b) <| .raw hn <|
        .stop (fixed_tag (by decide +kernel) b) <| .stop (fixed_tag (by decide +kernel) b) (.nil ..)
  rw [pageFrags]
  refine Runs.append (t := ["body".toList, "html".toList]) (Runs.append
    (Runs.append (t := ["body".toList, "html".toList]) (Runs.append (Runs.append (Runs.append h0 (h1 _)) ?_)
    (h2 ["body".toList, "html".toList])) ?_) (hd _)) ?_
  · exact .start "body".toList (fixed_tag (by decide +kernel) b) (.nil ..)
  · exact .start "div".toList (fixed_tag (by decide +kernel) b) <|
      .stop (fixed_tag (by decide +kernel) b) (.nil ..)
  · exact .start "div".toList (fixed_tag (by decide +kernel) b) <|
      .stop (fixed_tag (by decide +kernel) b) <| .stop (fixed_tag (by decide +kernel) b) <|
      .stop (fixed_tag (by decide +kernel) b) (.nil ..)

theorem runs_jar {b : Bool} {f : PageFrame} (hf : f.Plain) (hj : b = true → f.noJquery = true)
    (v : Verdict) {children : List Tree} (hc : ∀ c ∈ treesClasses children, '"' ∉ c.toList)
    (hl : ∀ s ∈ treesLinks children, '"' ∉ s) : Runs b (jarPage f v children) [] [] := by
  refine runs_page (f := { f with title := txt "JarReport" }) (title := "JarReport")
    ⟨hf.1, hf.2, hf.3⟩ hj rfl (by decide +kernel) fun st => ?_
  refine Runs.append (t := "div".toList :: st) (Runs.append (t := "div".toList :: st)
    (Runs.append (t := "div".toList :: st) ?_ ?_) ?_) ?_
  · exact .start "div".toList (fixed_tag (by decide +kernel) b) (.nil ..)
  · refine runs_tree b _ ?_ ?_ _
    · rw [Tree.classes, treesClasses]
      decide +kernel
    · rw [Tree.links, treesLinks]
      intro s hs
      cases hs
  · rw [jarContentsFrags]
    refine Runs.append (Runs.append ?_ (runs_groups b hc hl ("div".toList :: "div".toList :: st))) ?_
    · exact .decl (fixed_tag (by decide +kernel) b) <|
        .start "div".toList (fixed_tag (by decide +kernel) b) (.nil ..)
    · exact .stop (fixed_tag (by decide +kernel) b) <| .decl (fixed_tag (by decide +kernel) b) (.nil ..)
  · exact .stop (fixed_tag (by decide +kernel) b) (.nil ..)

theorem runs_dist {b : Bool} {f : PageFrame} (hf : f.Plain) (hj : b = true → f.noJquery = true)
    {children : List Tree} (hc : ∀ c ∈ treesClasses children, '"' ∉ c.toList)
    (hl : ∀ s ∈ treesLinks children, '"' ∉ s) : Runs b (distPage f children) [] [] :=
  runs_page (f := { f with title := txt "DistReport" }) (title := "DistReport")
    ⟨hf.1, hf.2, hf.3⟩ hj rfl (by decide +kernel) fun st =>
    runs_groups b hc hl st

theorem plain_classes {cs : List String} (h : ∀ c ∈ cs, c ∈ changeNames) : ∀ c ∈ cs, '"' ∉ c.toList :=
  fun c hc => changeNames_plain c (h c hc)

/-! ### C168 -/

/-- C168 in full: the pages of all reports on archives and distributions are well-formed. -/
def C168_full : Prop := ∀ (f : PageFrame) (v : Verdict) (children : List Tree),
  (∀ c ∈ treesClasses children, c ∈ changeNames) →
  XmlOk (renderFrags (jarPage f v children)) ∧ XmlOk (renderFrags (distPage f children))

theorem jquery_twice : tagOk false jqueryTag = true ∧ ¬ AttrsOk jqueryTag := by decide +kernel

/-- C168: no page with the reference to jQuery is well-formed, whatever it shows: the tag has the
attribute `type` twice. -/
theorem C168_jquery {f : PageFrame} (hs : ∀ s ∈ f.stylesheets, '"' ∉ s) (hj : f.noJquery = false)
    {title : String} (ht : f.title = txt title) (hn : '<' ∉ title.toList) (details : List Frag) :
    ¬ XmlOk (renderFrags (pageFrags f details)) := by
  intro h
  refine jquery_twice.2 (h.2 jqueryTag ?_)
  have e : pageFrags f details = (prologue ++ ([tg "head", tg "title", f.title, tg "/title"] ++
      f.stylesheets.map fun s => Frag.tag (styleLink s)) ++ [Frag.tag jqueryTag]) ++ ([tg "/script"] ++
      f.javascripts.flatMap (fun s => [.tag (scriptTag s), tg "/script"]) ++ [tg "/head"] ++
      [tg "body"] ++ headingFrags f ++ [tg "div id=\"report-intro\"", tg "/div"] ++ details ++
      [tg "div id=\"report-outro\"", tg "/div", tg "/body", tg "/html"]) := by
    rw [pageFrags, headFrags, hj, if_neg (by decide)]
    simp only [List.append_assoc, List.cons_append, List.nil_append]
  have hc : (prologue ++ ([tg "head", tg "title", f.title, tg "/title"] ++
      f.stylesheets.map fun s => Frag.tag (styleLink s)) ++ [Frag.tag jqueryTag]).all Frag.clean = true := by
    have h1 : prologue.all Frag.clean = true := by decide +kernel
    have h2 : [tg "head", tg "title", tg "/title"].all Frag.clean = true := by decide +kernel
    simp only [List.all_cons, List.all_nil, Bool.and_true, Bool.and_eq_true] at h2
    have h3 : f.title.clean = true := by rw [ht]; exact clean_raw hn
    have h4 : (f.stylesheets.map fun s => Frag.tag (styleLink s)).all Frag.clean = true := by
      rw [List.all_eq_true]
      intro x hx
      obtain ⟨s, h5, rfl⟩ := List.mem_map.1 hx
      exact (style_fine true (hs s h5)).1.1
    have h6 : (Frag.tag jqueryTag).clean = true := jquery_twice.1
    simp only [List.all_append, List.all_cons, List.all_nil, h1, h2.1, h2.2.1, h2.2.2, h3, h4, h6,
      Bool.and_self]
  rw [e, renderFrags_append]
  unfold tagsOf
  rw [tagsOf_render_append _ hc, List.mem_append, fragTags_append, List.mem_append]
  exact .inl (.inr (by simp [fragTags]))

/-- C168, exactly: with plain addresses, the page of an archive is well-formed if and only if it
does not refer to jQuery. -/
theorem C168_exact {f : PageFrame} (hf : f.Plain) (v : Verdict) {children : List Tree}
    (hc : ∀ c ∈ treesClasses children, c ∈ changeNames) (hl : ∀ s ∈ treesLinks children, '"' ∉ s) :
    XmlOk (renderFrags (jarPage f v children)) ↔ f.noJquery = true := by
  constructor
  · intro h
    cases hj : f.noJquery with
    | true => rfl
    | false =>
      refine absurd h ?_
      exact C168_jquery (f := { f with title := txt "JarReport" }) hf.styles hj rfl
        (by decide +kernel) _
  · intro hj
    exact (runs_jar hf (fun _ => hj) v (plain_classes hc) hl).ok

/-- C168, exactly, for distributions. -/
theorem C168_exact_dist {f : PageFrame} (hf : f.Plain) {children : List Tree}
    (hc : ∀ c ∈ treesClasses children, c ∈ changeNames) (hl : ∀ s ∈ treesLinks children, '"' ∉ s) :
    XmlOk (renderFrags (distPage f children)) ↔ f.noJquery = true := by
  constructor
  · intro h
    cases hj : f.noJquery with
    | true => rfl
    | false =>
      refine absurd h ?_
      exact C168_jquery (f := { f with title := txt "DistReport" }) hf.styles hj rfl
        (by decide +kernel) _
  · intro hj
    exact (runs_dist hf (fun _ => hj) (plain_classes hc) hl).ok

/-- C168, proved part: without jQuery and with plain addresses. -/
theorem C168_partial {f : PageFrame} (hf : f.Plain) (hj : f.noJquery = true) (v : Verdict)
    {children : List Tree} (hc : ∀ c ∈ treesClasses children, c ∈ changeNames)
    (hl : ∀ s ∈ treesLinks children, '"' ∉ s) :
    XmlOk (renderFrags (jarPage f v children)) ∧ XmlOk (renderFrags (distPage f children)) :=
  ⟨(C168_exact hf v hc hl).2 hj, (C168_exact_dist hf hc hl).2 hj⟩

/-- A page without anything. -/
def bareFrame (noJquery : Bool) : PageFrame := ⟨txt "", noJquery, [], [], []⟩

theorem bare_plain (j : Bool) : (bareFrame j).Plain :=
  ⟨by simp [bareFrame], by simp [bareFrame], by simp [bareFrame]⟩

theorem C168_full_fails : ¬ C168_full := by
  intro h
  have := (h (bareFrame false) ⟨false, false⟩ [] (by simp [treesClasses])).1
  rw [C168_exact (bare_plain false) _ (by simp [treesClasses]) (by simp [treesLinks])] at this
  cases this

/-! ### C169 -/

/-- C169 in full: whatever names there are, the tags of the page are of the elements, and with the
attributes, that the templates have. -/
def C169_full : Prop := ∀ (f : PageFrame), f.Plain → ∀ (v : Verdict) (children : List Tree),
  (∀ c ∈ treesClasses children, c ∈ changeNames) →
  (∀ t ∈ tagsOf (renderFrags (jarPage f v children)), Allowed t) ∧
  ∀ t ∈ tagsOf (renderFrags (distPage f children)), Allowed t

/-- C169, proved part: when the names in links have no quotes; the labels and the other names can
be any. -/
theorem C169_partial {f : PageFrame} (hf : f.Plain) (v : Verdict) {children : List Tree}
    (hc : ∀ c ∈ treesClasses children, c ∈ changeNames) (hl : ∀ s ∈ treesLinks children, '"' ∉ s) :
    (∀ t ∈ tagsOf (renderFrags (jarPage f v children)), Allowed t) ∧
    ∀ t ∈ tagsOf (renderFrags (distPage f children)), Allowed t :=
  ⟨(runs_jar (b := false) hf (by simp) v (plain_classes hc) hl).allowed,
    (runs_dist (b := false) hf (by simp) (plain_classes hc) hl).allowed⟩

/-- A changed class in an archive. -/
def linked (entry : Str) : Tree :=
  .squashed "JarClassReport" ⟨true, false⟩ entry "JavaClassReport".toList

theorem C169_full_fails : ¬ C169_full := by
  intro h
  have := (h (bareFrame true) (bare_plain true) ⟨false, false⟩
    [linked "\"onclick=\"f()".toList] (by decide +kernel)).1
  revert this
  decide +kernel

/-- Two changed classes, an added file with a name like a tag, a changed manifest. -/
def someTrees : List Tree := [
  linked "p/B.class".toList, linked "p/A.class".toList,
  .node "JarContentAdded" ⟨true, false⟩ "Jar Content Added".toList "<b onclick=\"f()\">".toList [],
  .node "JarManifestChange" ⟨true, false⟩ "Jar Manifest".toList "META-INF/MANIFEST.MF".toList
    [.node "ManifestChange" ⟨true, false⟩ "Manifest".toList [] []]]

/-- A frame with a style sheet, a script and a breadcrumb. -/
def someFrame (j : Bool) : PageFrame :=
  ⟨txt "", j, ["data/a.css".toList], ["data/b.js".toList], [("..".toList, "DistReport".toList)]⟩

example : (someFrame true).Plain ∧ (∀ c ∈ treesClasses someTrees, c ∈ changeNames) ∧
    (∀ s ∈ treesLinks someTrees, '"' ∉ s) ∧
    XmlOk (renderFrags (jarPage (someFrame true) ⟨false, false⟩ someTrees)) ∧
    ¬ XmlOk (renderFrags (jarPage (someFrame false) ⟨false, false⟩ someTrees)) :=
  ⟨⟨by decide +kernel, by decide +kernel, by decide +kernel⟩, by decide +kernel, by decide +kernel,
    by decide +kernel, by decide +kernel⟩

example : templateOf "JarManifestChange" = some "jardiff_JarContentChange".toList ∧
    templateOf "SignatureManifestChange" = some "manifest_ManifestChange".toList ∧
    templateOf "JarTypeChange" = some "change_Change".toList := by decide +kernel

end Javatools
