import Verif.Model.JarPage
import Verif.Props.Page
import Verif.Props.JarDiff
import Verif.Props.Report
/-
C170: the HTML page of a report on two JARs shows every entry of either exactly once, under the
heading of what happened to it.
-/
namespace Javatools

/-! ### Reading the pieces -/

/-- A piece of the page, read from the right: the text in front of what was read so far, and what
has been found in it. -/
def fragStep (f : Frag) (st : Str × List Str × List (Str × List Str)) :
    Str × List Str × List (Str × List Str) :=
  match f with
  | .tag s => ([], pieceStep (s, st.1) st.2)
  | .esc s => (xmlEscape s ++ st.1, st.2)
  | .raw s => (s ++ st.1, st.2)

theorem pieces_text (s rest : Str) (h : '<' ∉ s) :
    piecesFrom none (s ++ rest) = (s ++ (piecesFrom none rest).1, (piecesFrom none rest).2) := by
  induction s with
  | nil => rfl
  | cons c s ih =>
    simp only [List.mem_cons, not_or] at h
    rw [List.cons_append, piecesFrom, if_neg (fun e => h.1 e.symm), ih h.2]
    rfl

theorem pieces_tag (s : Str) (q : Bool) (acc rest : Str) (h : tagOk q s = true) :
    piecesFrom (some (acc, q)) (s ++ '>' :: rest) =
      ([], (acc.reverse ++ s, (piecesFrom none rest).1) :: (piecesFrom none rest).2) := by
  induction s generalizing q acc with
  | nil =>
    cases q <;> simp [tagOk] at h
    simp [piecesFrom]
  | cons c s ih =>
    rw [tagOk] at h
    split at h
    · simp at h
    · rename_i hc
      rw [List.cons_append, piecesFrom, if_neg hc, ih _ _ h]
      simp

theorem pieces_render {fs : List Frag} (h : fs.all Frag.clean = true) :
    fs.foldr fragStep ([], [], []) =
      ((piecesFrom none (renderFrags fs)).1,
        (piecesFrom none (renderFrags fs)).2.foldr pieceStep ([], [])) := by
  induction fs with
  | nil => rfl
  | cons f fs ih =>
    simp only [List.all_cons, Bool.and_eq_true] at h
    rw [List.foldr_cons, ih h.2]
    cases f with
    | tag s =>
      have h1 : tagOk false s = true := h.1
      rw [renderFrags, List.cons_append, piecesFrom, if_pos rfl, pieces_tag s false [] _ h1]
      rfl
    | esc s => rw [renderFrags, pieces_text _ _ (C116_inert s).1]; rfl
    | raw s =>
      have h1 : '<' ∉ s := by simpa [Frag.clean] using h.1
      rw [renderFrags, pieces_text _ _ h1]; rfl

theorem shownOn_render {fs : List Frag} (h : fs.all Frag.clean = true) :
    shownOn (renderFrags fs) = (fs.foldr fragStep ([], [], [])).2.2 := by
  rw [pieces_render h]
  rfl

/-- The pieces show these entries. -/
def Adds (fs : List Frag) (es : List Str) : Prop :=
  ∀ p g, fs.foldr fragStep ([], p, g) = ([], es ++ p, g)

theorem Adds.nil : Adds [] [] := fun _ _ => rfl

theorem Adds.append {a b : List Frag} {x y : List Str} (h1 : Adds a x) (h2 : Adds b y) :
    Adds (a ++ b) (x ++ y) := fun p g => by
  rw [List.foldr_append, h2, h1, List.append_assoc]

/-- A tag that is neither a heading nor the block of a change. -/
theorem step_other {s : Str} (h : s ≠ "h2".toList ∧ "div class=\"Change ".toList.isPrefixOf s = false)
    (st : Str × List Str × List (Str × List Str)) : fragStep (.tag s) st = ([], st.2) := by
  rw [fragStep, pieceStep, if_neg h.1, if_neg (by rw [h.2]; simp)]

theorem step_tg {s : String}
    (h : s.toList ≠ "h2".toList ∧ "div class=\"Change ".toList.isPrefixOf s.toList = false)
    (st : Str × List Str × List (Str × List Str)) : fragStep (tg s) st = ([], st.2) := step_other h st

theorem change_prefix (type : String) (v : Verdict) :
    ("div class=\"" ++ divClasses type v ++ "\"").toList ≠ "h2".toList ∧
    "div class=\"Change ".toList.isPrefixOf ("div class=\"" ++ divClasses type v ++ "\"").toList = true := by
  have e : "div class=\"Change ".toList = "div class=\"".toList ++ "Change ".toList := by decide +kernel
  have hd : "div class=\"".toList = 'd' :: "iv class=\"".toList := by decide +kernel
  have hh : "h2".toList = ['h', '2'] := by decide +kernel
  constructor
  · rw [String.toList_append, String.toList_append, hd, hh]
    simp
  · rw [List.isPrefixOf_iff_prefix]
    unfold divClasses
    simp only [String.toList_append]
    rw [e]
    simp only [List.append_assoc]
    rw [List.prefix_append_right_inj]
    exact List.prefix_append ..

/-- The block of a change. -/
theorem step_change (type : String) (v : Verdict) (st : Str × List Str × List (Str × List Str)) :
    fragStep (tg ("div class=\"" ++ divClasses type v ++ "\"")) st =
      ([], if st.1 = [] then st.2 else (st.1 :: st.2.1, st.2.2)) := by
  obtain ⟨h1, h2⟩ := change_prefix type v
  rw [tg, fragStep, pieceStep, if_neg h1, h2]
  by_cases h : st.1 = []
  · rw [if_neg (by simp [h]), if_pos h]
  · rw [if_pos ⟨rfl, h⟩, if_neg h]

/-! ### Changes that show no entry -/

/-- The changes below those of the entries of a JAR; the empty name stands for one that could not
be made. -/
def calmTypes : List String := ["", "ManifestChange", "SignatureManifestChange",
  "ManifestSectionChange", "ManifestSectionAdded", "ManifestSectionRemoved", "ManifestMainChange",
  "SignatureBlockFileChange", "GenericFileChange", "GenericChange"]

mutual
def Tree.Calm : Tree → Prop
  | .node type _ _ _ kids => type ∈ calmTypes ∧ TreesCalm kids
  | .squashed .. => False
def TreesCalm : List Tree → Prop
  | [] => True
  | t :: ts => t.Calm ∧ TreesCalm ts
end

mutual
def Change.Muted : Change DiffOpts → Prop
  | .leaf h _ _ _ => h.typeName ∈ calmTypes
  | .super h _ _ _ cs => h.typeName ∈ calmTypes ∧ ChangesCalm cs
  | .squashed .. => False
def ChangesCalm : List (Change DiffOpts) → Prop
  | [] => True
  | c :: cs => c.Muted ∧ ChangesCalm cs
end

mutual
theorem calm_treeOf (o : DiffOpts) (c : Change DiffOpts) (h : c.Muted) : (treeOf o c).Calm := by
  match c with
  | .leaf .. => exact ⟨h, trivial⟩
  | .super _ _ _ _ cs => exact ⟨h.1, calm_treesOf o cs h.2⟩
theorem calm_treesOf (o : DiffOpts) (cs : List (Change DiffOpts)) (h : ChangesCalm cs) :
    TreesCalm (treesOf o cs) := by
  match cs with
  | [] => trivial
  | c :: cs => exact ⟨calm_treeOf o c h.1, calm_treesOf o cs h.2⟩
end

mutual
theorem calm_check (c c' : Change DiffOpts) (h : c.Muted) (hc : c.check = .ok c') : c'.Muted := by
  match c with
  | .leaf hd none b d =>
    simp only [Change.check, Except.ok.injEq] at hc; subst hc; exact h
  | .leaf hd (some (.error e)) b d => simp [Change.check] at hc
  | .leaf hd (some (.ok (x, y))) b d =>
    simp only [Change.check, Except.ok.injEq] at hc; subst hc; exact h
  | .super hd (some x) b d cs =>
    simp only [Change.check, Except.ok.injEq] at hc; subst hc; exact h
  | .super hd none b d cs =>
    simp only [Change.check] at hc
    cases hk : Change.checkAll cs false with
    | error e => rw [hk] at hc; simp at hc
    | ok p =>
      obtain ⟨x, y⟩ := p
      rw [hk] at hc
      simp only [Except.ok.injEq] at hc; subst hc
      exact ⟨h.1, calm_checkAll cs false x y h.2 hk⟩
theorem calm_checkAll (cs : List (Change DiffOpts)) (b : Bool) (cs' : List (Change DiffOpts)) (b' : Bool)
    (h : ChangesCalm cs) (hc : Change.checkAll cs b = .ok (cs', b')) : ChangesCalm cs' := by
  match cs with
  | [] => simp only [Change.checkAll, Except.ok.injEq, Prod.mk.injEq] at hc; rw [← hc.1]; trivial
  | c :: cs =>
    simp only [Change.checkAll] at hc
    cases h1 : c.check with
    | error e => rw [h1] at hc; simp at hc
    | ok c1 =>
      rw [h1] at hc
      simp only at hc
      cases h2 : Change.checkAll cs (b || c1.isChange) with
      | error e => rw [h2] at hc; simp at hc
      | ok p =>
        obtain ⟨x, y⟩ := p
        rw [h2] at hc
        simp only [Except.ok.injEq, Prod.mk.injEq] at hc
        rw [← hc.1]
        exact ⟨calm_check c c1 h.1 h1, calm_checkAll cs _ x y h.2 h2⟩
end

/-- What the description of a calm change is not. -/
theorem calm_template : ∀ t ∈ calmTypes, ∀ n ∈ ["jardiff_JarContentChange", "jardiff_JarClassChange",
    "distdiff_DistContentChange", "distdiff_DistClassChange"], (templateOf t).getD [] ≠ n.toList := by
  decide +kernel

theorem adds_calm_description {type : String} (h : type ∈ calmTypes) (label entry : Str) :
    Adds (descriptionFrags ((templateOf type).getD []) label entry) [] := by
  have h1 := calm_template type h
  generalize (templateOf type).getD [] = t at *
  intro p g
  unfold descriptionFrags
  split
  · rw [List.foldr_cons, step_tg (by decide +kernel), List.foldr_cons, List.foldr_cons,
      step_tg (by decide +kernel)]
    rfl
  · rw [if_neg (fun h2 => by
      rcases h2 with h2 | h2 | h2 | h2
      · exact h1 _ (by simp) h2
      · exact h1 _ (by simp) h2
      · exact h1 _ (by simp) h2
      · exact h1 _ (by simp) h2)]
    rw [List.foldr_cons, step_tg (by decide +kernel), List.foldr_cons, List.foldr_cons,
      step_tg (by decide +kernel)]
    rfl

theorem adds_collect {fs : List Frag} (h : Adds fs []) : Adds (collectDiv fs) [] := by
  intro p g
  rw [collectDiv, List.cons_append, List.foldr_cons, step_tg (by decide +kernel), List.foldr_append,
    List.foldr_cons, step_tg (by decide +kernel), List.foldr_nil, h]

mutual
theorem adds_calm (t : Tree) (h : t.Calm) : Adds (treeFrags t) [] := by
  match t with
  | .node type v label entry kids =>
    intro p g
    rw [treeFrags, changeDiv, List.cons_append, List.foldr_cons, step_change, List.foldr_append,
      List.foldr_cons, step_tg (s := "/div") (by decide +kernel), List.foldr_nil, List.foldr_append]
    have h2 : (if kids.isEmpty then [] else collectDiv (treesFrags kids)).foldr fragStep ([], p, g) =
        ([], p, g) := by
      split
      · rfl
      · exact adds_collect (adds_calms kids h.2) p g
    rw [h2, adds_calm_description h.1 label entry p g]
    rfl
theorem adds_calms (ts : List Tree) (h : TreesCalm ts) : Adds (treesFrags ts) [] := by
  match ts with
  | [] => rw [treesFrags]; exact .nil
  | t :: ts => rw [treesFrags]; exact (adds_calm t h.1).append (adds_calms ts h.2)
end

mutual
theorem calm_classes (t : Tree) (h : t.Calm) : ∀ c ∈ t.classes, c ∈ calmTypes := by
  match t with
  | .node type v label entry kids =>
    rw [Tree.classes]
    intro c hc
    rcases List.mem_cons.1 hc with rfl | hc
    · exact h.1
    · exact calms_classes kids h.2 c hc
theorem calms_classes (ts : List Tree) (h : TreesCalm ts) : ∀ c ∈ treesClasses ts, c ∈ calmTypes := by
  match ts with
  | [] => rw [treesClasses]; simp
  | t :: ts =>
    rw [treesClasses]
    intro c hc
    rcases List.mem_append.1 hc with hc | hc
    · exact calm_classes t h.1 c hc
    · exact calms_classes ts h.2 c hc
end

mutual
theorem calm_links (t : Tree) (h : t.Calm) : t.links = [] := by
  match t with
  | .node type v label entry kids => rw [Tree.links]; exact calms_links kids h.2
theorem calms_links (ts : List Tree) (h : TreesCalm ts) : treesLinks ts = [] := by
  match ts with
  | [] => rw [treesLinks]
  | t :: ts => rw [treesLinks, calm_links t h.1, calms_links ts h.2]; rfl
end

/-- A word that can stand for a class of changes: no quotes, no blanks, not a mark. -/
structure ClassWord (c : String) : Prop where
  quote : '"' ∉ c.toList
  blank : ' ' ∉ c.toList
  marks : c.toList ≠ "is_changed".toList ∧ c.toList ≠ "is_ignored".toList

theorem classWord {c : String} (h : '"' ∉ c.toList ∧ ' ' ∉ c.toList ∧ c.toList ≠ "is_changed".toList ∧
    c.toList ≠ "is_ignored".toList) : ClassWord c := ⟨h.1, h.2.1, h.2.2⟩

theorem calmTypes_plain : ∀ c ∈ calmTypes, ClassWord c := by
  have : ∀ c ∈ calmTypes, '"' ∉ c.toList ∧ ' ' ∉ c.toList ∧ c.toList ≠ "is_changed".toList ∧
    c.toList ≠ "is_ignored".toList := by decide +kernel
  exact fun c hc => classWord (this c hc)

/-! ### Changes that show an entry -/

/-- What a page shows for one entry. -/
def entryShown (f : Str) : List Str := if f = [] then [] else [xmlEscape f]

theorem xmlEscape_ne {f : Str} (h : f ≠ []) : xmlEscape f ≠ [] := fun e =>
  h (C116_injective (e.trans (show ([] : Str) = xmlEscape [] by decide +kernel)))

theorem entryShown_step (f : Str) (type : String) (v : Verdict) (p : List Str)
    (g : List (Str × List Str)) :
    fragStep (tg ("div class=\"" ++ divClasses type v ++ "\"")) (xmlEscape f, p, g) =
      ([], entryShown f ++ p, g) := by
  rw [step_change, entryShown]
  by_cases h : f = []
  · subst h
    rw [if_pos rfl, if_pos (show xmlEscape [] = [] by decide +kernel)]
    rfl
  · rw [if_neg h, if_neg (xmlEscape_ne h)]
    rfl

theorem adds_squashed (oc : String) (v : Verdict) (f rn : Str) :
    Adds (treeFrags (.squashed oc v f rn)) (entryShown f) := by
  intro p g
  have ha : ("a href=\"".toList ++ detailsHref f rn ++ ['"']) ≠ "h2".toList ∧
      "div class=\"Change ".toList.isPrefixOf ("a href=\"".toList ++ detailsHref f rn ++ ['"']) = false := by
    have e1 : "a href=\"".toList = 'a' :: " href=\"".toList := by decide +kernel
    have e2 : "h2".toList = ['h', '2'] := by decide +kernel
    have e3 : "div class=\"Change ".toList = 'd' :: "iv class=\"Change ".toList := by decide +kernel
    rw [e1, e2, e3]
    constructor
    · simp
    · simp [List.isPrefixOf]
  rw [treeFrags, squashedFrags]
  simp only [List.foldr_cons, List.foldr_nil]
  rw [step_tg (s := "/div") (by decide +kernel), step_tg (s := "/span") (by decide +kernel)]
  rw [step_tg (s := "/a") (by decide +kernel), step_other ha,
    step_tg (s := "span class=\"moreinfo\"") (by decide +kernel)]
  have : fragStep (.esc f) ([], p, g) = (xmlEscape f, p, g) := by
    rw [fragStep]; simp
  exact (congrArg _ this).trans (entryShown_step f _ v p g)

/-- The changes of entries are those whose template is that of the contents of JARs or
distributions. -/
def entryTypes : List String := ["JarManifestChange", "JarSignatureFileAdded", "JarSignatureFileRemoved",
   "JarSignatureFileChange", "JarSignatureBlockFileAdded", "JarSignatureBlockFileRemoved",
   "JarSignatureBlockFileChange", "JarGenericFileChange", "JarContentAdded", "JarContentRemoved",
   "JarContentChange", "JarClassAdded", "JarClassRemoved", "JarClassChange",
   "DistContentAdded", "DistContentRemoved", "DistContentChange", "DistTextChange", "DistManifestChange",
   "DistJarAdded", "DistJarRemoved", "DistJarChange", "DistClassAdded", "DistClassRemoved", "DistClassChange"]

theorem entry_template : ∀ t ∈ entryTypes, (templateOf t).getD [] ≠ "manifest_ManifestChange".toList ∧
    ((templateOf t).getD [] = "jardiff_JarContentChange".toList ∨
      (templateOf t).getD [] = "jardiff_JarClassChange".toList ∨
      (templateOf t).getD [] = "distdiff_DistContentChange".toList ∨
      (templateOf t).getD [] = "distdiff_DistClassChange".toList) := by
  decide +kernel

theorem adds_entry {type : String} (h : type ∈ entryTypes) (v : Verdict) (label f : Str)
    {kids : List Tree} (hk : TreesCalm kids) :
    Adds (treeFrags (.node type v label f kids)) (entryShown f) := by
  intro p g
  obtain ⟨h1, h2⟩ := entry_template type h
  rw [treeFrags, changeDiv, List.cons_append, List.foldr_cons, List.foldr_append,
    List.foldr_cons, step_tg (s := "/div") (by decide +kernel), List.foldr_nil, List.foldr_append]
  have h3 : (if kids.isEmpty then [] else collectDiv (treesFrags kids)).foldr fragStep ([], p, g) =
      ([], p, g) := by
    split
    · rfl
    · exact adds_collect (adds_calms kids hk) p g
  rw [h3, descriptionFrags, if_neg h1, if_pos h2]
  have : [Frag.esc f].foldr fragStep ([], p, g) = (xmlEscape f, p, g) := by
    simp [fragStep]
  rw [this, entryShown_step]

/-- What a tree shows, in a report that puts squashed changes under `orig`; there may be a link only if
`linked`. -/
structure ShowsEntry (orig : Child → String) (linked : Prop) (t : Tree) (h : String) (f : Str) :
    Prop where
  heading : headingOf Tree.type (fun t => orig t.child) "SquashedChange" t = h
  entry : t.child.entry = f
  adds : Adds (treeFrags t) (entryShown f)
  classes : ∀ c ∈ t.classes, ClassWord c
  links : ∀ s ∈ t.links, (s = f ∧ linked) ∨ '"' ∉ s

theorem ShowsEntry.weaken {orig : Child → String} {P Q : Prop} {t : Tree} {h : String} {f : Str}
    (hs : ShowsEntry orig P t h f) (hp : P → Q) : ShowsEntry orig Q t h f :=
  ⟨hs.heading, hs.entry, hs.adds, hs.classes, fun s hm => (hs.links s hm).imp_left fun h => ⟨h.1, hp h.2⟩⟩

theorem entryTypes_plain : ∀ c ∈ entryTypes, ClassWord c ∧ c ≠ "SquashedChange" := by
  have : ∀ c ∈ entryTypes, ('"' ∉ c.toList ∧ ' ' ∉ c.toList ∧ c.toList ≠ "is_changed".toList ∧
    c.toList ≠ "is_ignored".toList) ∧ c ≠ "SquashedChange" := by decide +kernel
  exact fun c hc => ⟨classWord (this c hc).1, (this c hc).2⟩

theorem shows_node {type : String} (h : type ∈ entryTypes) (v : Verdict) (label f : Str)
    {kids : List Tree} (hk : TreesCalm kids) (orig : Child → String) (linked : Prop) :
    ShowsEntry orig linked (.node type v label f kids) type f where
  heading := by rw [headingOf]; exact if_neg (entryTypes_plain type h).2
  entry := rfl
  adds := adds_entry h v label f hk
  classes := by
    rw [Tree.classes]
    intro c hc
    rcases List.mem_cons.1 hc with rfl | hc
    · exact (entryTypes_plain c h).1
    · exact calmTypes_plain c (calms_classes kids hk c hc)
  links := by rw [Tree.links, calms_links kids hk]; simp

theorem shows_squashed (v : Verdict) (f : Str) :
    ShowsEntry jarOrig True (.squashed "JarClassReport" v f "JavaClassReport".toList)
      "JarClassChange" f where
  heading := by rw [headingOf]; exact (if_pos rfl).trans (if_pos rfl)
  entry := rfl
  adds := adds_squashed _ _ _ _
  classes := by
    rw [Tree.classes]
    intro c hc
    rw [List.mem_singleton] at hc
    subst hc
    exact classWord (by decide +kernel)
  links := by
    have h : '"' ∉ "JavaClassReport".toList := by decide +kernel
    rw [Tree.links]
    intro s hs
    simp only [List.mem_cons, List.not_mem_nil, or_false] at hs
    rcases hs with rfl | rfl
    · exact .inl ⟨rfl, trivial⟩
    · exact .inr h

/-! ### The changes of a report -/

theorem muted_of_mem {cs : List (Change DiffOpts)} (h : ∀ c ∈ cs, c.Muted) : ChangesCalm cs := by
  induction cs with
  | nil => trivial
  | cons c cs ih => exact ⟨h c (List.mem_cons_self ..), ih fun x hx => h x (List.mem_cons_of_mem _ hx)⟩

theorem raising_calm (e : PyErr) : ChangesCalm (raising e) :=
  ⟨show "" ∈ calmTypes by decide, trivial⟩

theorem manifest_calm (order : List Str → List Str) (text : Section → Str) (a b : Manifest) :
    ChangesCalm (manifestChildren order text a b) := by
  refine muted_of_mem fun c hc => ?_
  unfold manifestChildren at hc
  simp only [List.mem_append, List.mem_cons, List.mem_map] at hc
  rcases hc with ((rfl | ⟨_, _, rfl⟩) | ⟨_, _, rfl⟩) | ⟨_, _, rfl⟩
  · exact show "ManifestMainChange" ∈ calmTypes by decide
  · exact show "ManifestSectionChange" ∈ calmTypes by decide
  · exact show "ManifestSectionRemoved" ∈ calmTypes by decide
  · exact show "ManifestSectionAdded" ∈ calmTypes by decide

theorem orRaise_calm {α : Type} (x : Res α) (g : α → Change DiffOpts) (h : ∀ a, (g a).Muted) :
    ChangesCalm (orRaise (x.map fun p => [g p])) := by
  cases x with
  | error e => exact raising_calm e
  | ok a => exact ⟨h a, trivial⟩

/-- A checked change of an entry. -/
theorem shows_super (o : DiffOpts) {hd : Hdr DiffOpts} {f : Str} {b : Bool} {d : Option Str}
    {kids : List (Change DiffOpts)} {x : Change DiffOpts} (ht : hd.typeName ∈ entryTypes)
    (he : hd.entry = some f) (hk : ChangesCalm kids)
    (hx : (Change.super hd none b d kids).check = .ok x) (orig : Child → String) (linked : Prop) :
    ShowsEntry orig linked (treeOf o x) hd.typeName f := by
  simp only [Change.check] at hx
  cases hc : Change.checkAll kids false with
  | error e => rw [hc] at hx; simp at hx
  | ok p =>
    obtain ⟨ks, y⟩ := p
    rw [hc] at hx
    simp only [Except.ok.injEq] at hx
    subst hx
    rw [treeOf, he]
    exact shows_node ht _ _ f (calm_treesOf o ks (calm_checkAll kids _ ks y hk hc)) ..

theorem shows_content {P : Prop} (o : DiffOpts) {name label : String} {ign : IgnoreRule DiffOpts} {f : Str}
    {b : Bool} {kids : List (Change DiffOpts)} {x : Change DiffOpts} (ht : name ∈ entryTypes)
    (hr : name ≠ "JarClassChange" ∨ b = false) (hk : b = true → ChangesCalm kids)
    (hx : (jarContent name label ign f b kids).check = .ok x) :
    ShowsEntry jarOrig P (treeOf o (if isReported (jarContent name label ign f b kids) then
      x.squash false (some o) else x)) name f := by
  have h1 : isReported (jarContent name label ign f b kids) = false := by
    unfold isReported
    rw [jarContent_isChange]
    rcases hr with hr | hr
    · rw [show (jarContent name label ign f b kids).hdr.typeName = name from rfl, decide_eq_false hr]; rfl
    · rw [hr, Bool.and_false]
  rw [h1, if_neg (by decide)]
  unfold jarContent at hx
  refine shows_super o (f := f) ht rfl ?_ hx ..
  cases b with
  | false => trivial
  | true => exact hk rfl

theorem shows_oneSided {P : Prop} (o : DiffOpts) {name label : String} {k : Kind} {ign : IgnoreRule DiffOpts}
    {f : Str} {x : Change DiffOpts} (ht : name ∈ entryTypes) (hr : name ≠ "JarClassChange")
    (hx : (jarOneSided name label k ign f).check = .ok x) :
    ShowsEntry jarOrig P (treeOf o (if isReported (jarOneSided name label k ign f) then
      x.squash false (some o) else x)) name f := by
  have h1 : isReported (jarOneSided name label k ign f) = false := by
    unfold isReported
    rw [show (jarOneSided name label k ign f).hdr.typeName = name from rfl, decide_eq_false hr]; rfl
  rw [h1, if_neg (by decide)]
  exact shows_super o (f := f) (kids := []) ht rfl trivial hx ..

/-- What is left of a change of an entry in the report. -/
theorem shows_event (E : JarEnv) (hup : IsUpper E.up) (l r : Archive) (o : DiffOpts) (ev : Event)
    (f : Str) (k : EntryKind) (hk : KindOf E.up f k) {x : Change DiffOpts}
    (hx : (jarEntryChange E l r (ev, f)).check = .ok x) :
    ShowsEntry jarOrig (ev = .diff ∧ k = .cls)
      (treeOf o (if isReported (jarEntryChange E l r (ev, f)) then x.squash false (some o) else x))
      (entryClass ev k) f := by
  rw [jarEntryChange_eq E hup l r ev f k hk] at hx ⊢
  have hman : ∀ p : Manifest × Manifest, (manifestChange E.order E.text p.1 p.2).Muted := fun p =>
    ⟨show "ManifestChange" ∈ calmTypes by decide, manifest_calm ..⟩
  have hsig : ∀ p : Manifest × Manifest, (signatureManifestChange E.order E.text p.1 p.2).Muted := fun p =>
    ⟨show "SignatureManifestChange" ∈ calmTypes by decide, manifest_calm ..⟩
  have hblk : ∀ p : Payload × Payload, (signatureBlockFileChange (decide (p.1 ≠ p.2))).Muted := fun p =>
    show "SignatureBlockFileChange" ∈ calmTypes by decide
  have hgen : ∀ p : Payload × Payload, (genericFileChange (decide (p.1 ≠ p.2))).Muted := fun p =>
    show "GenericFileChange" ∈ calmTypes by decide
  cases ev with
  | same =>
    cases k <;> simp only [entryObject] at hx ⊢
    · exact shows_content o (by decide) (.inr rfl) (by simp) hx
    · exact shows_content o (by decide) (.inr rfl) (by simp) hx
    · exact shows_content o (by decide) (.inr rfl) (by simp) hx
    · exact shows_content o (by decide) (.inr rfl) (by simp) hx
    · exact shows_content o (by decide) (.inr rfl) (by simp) hx
  | left => cases k <;> exact shows_oneSided o (by decide) (by decide) hx
  | right => cases k <;> exact shows_oneSided o (by decide) (by decide) hx
  | diff =>
    cases k with
    | manifest => exact shows_content o (by decide) (.inl (by decide)) (fun _ => orRaise_calm _ _ hman) hx
    | sigfile => exact shows_content o (by decide) (.inl (by decide)) (fun _ => orRaise_calm _ _ hsig) hx
    | sigblock => exact shows_content o (by decide) (.inl (by decide)) (fun _ => orRaise_calm _ _ hblk) hx
    | other => exact shows_content o (by decide) (.inl (by decide)) (fun _ => orRaise_calm _ _ hgen) hx
    | cls =>
      have h1 : isReported (entryObject E l r f .diff .cls) = true := rfl
      have h2 := Change.check_hdr _ _ hx
      have h3 : x.hdr.kind = .plain := by rw [h2]; rfl
      have h4 : x.hdr.entry = some f := by rw [h2]; rfl
      rw [h1, if_pos rfl, Change.squash]
      simp only [h3]
      rw [Change.mkSquashed, treeOf, h4]
      have h5 := shows_squashed ⟨x.isChange, x.isIgnored o⟩ f
      exact h5.weaken fun _ => by simp

/-- What a page needs to know of the trees. -/
theorem report_trees (E : JarEnv) (hup : IsUpper E.up) (l r : Archive) (o : DiffOpts)
    (cs : List (Change DiffOpts)) (hc : ∀ c ∈ cs, ∃ p, c = jarEntryChange E l r p) (b : Bool)
    (cs' : List (Change DiffOpts)) (b' : Bool) (h : reportAll o cs b = .ok (cs', b')) :
    (treesOf o cs').map (fun t => (headingOf Tree.type (fun t => jarOrig t.child) "SquashedChange" t,
        t.child.entry)) = cs.map (fun c => (c.hdr.typeName, c.hdr.entry.getD [])) ∧
    ∀ t ∈ treesOf o cs', ∃ ev f k, jarEntryChange E l r (ev, f) ∈ cs ∧ KindOf E.up f k ∧
      ShowsEntry jarOrig (ev = .diff ∧ k = .cls) t (entryClass ev k) f := by
  induction cs generalizing b cs' with
  | nil =>
    simp only [reportAll, Except.ok.injEq, Prod.mk.injEq] at h
    rw [← h.1]
    exact ⟨rfl, by simp [treesOf]⟩
  | cons c cs ih =>
    simp only [reportAll] at h
    cases hx : c.check with
    | error e => rw [hx] at h; simp at h
    | ok x =>
      rw [hx] at h
      simp only at h
      cases hr : reportAll o cs (b || x.isChange) with
      | error e => rw [hr] at h; simp at h
      | ok p =>
        obtain ⟨ys, b1⟩ := p
        rw [hr] at h
        simp only [Except.ok.injEq, Prod.mk.injEq] at h
        obtain ⟨ih1, ih2⟩ := ih (fun c hc' => hc c (List.mem_cons_of_mem _ hc')) _ _ (h.2 ▸ hr)
        obtain ⟨⟨ev, f⟩, rfl⟩ := hc c (List.mem_cons_self ..)
        obtain ⟨k, hk, _⟩ := kindOf_unique E.up f
        have h1 := shows_event E hup l r o ev f k hk hx
        obtain ⟨h2, h3, _⟩ := C67_entry E hup l r ev f k hk
        rw [← h.1, treesOf]
        constructor
        · rw [List.map_cons, List.map_cons, ih1, h1.heading, h1.entry, h2, h3]
          rfl
        · intro t ht
          rcases List.mem_cons.1 ht with rfl | ht
          · exact ⟨ev, f, k, List.mem_cons_self .., hk, h1⟩
          · obtain ⟨ev', f', k', h4, h5⟩ := ih2 t ht
            exact ⟨ev', f', k', List.mem_cons_of_mem _ h4, h5⟩

/-! ### The page -/

theorem fold_trees {ts : List Tree} {e : Tree → List Str} (h : ∀ t ∈ ts, Adds (treeFrags t) (e t)) :
    Adds (treesFrags ts) (ts.flatMap e) := by
  induction ts with
  | nil => rw [treesFrags]; exact .nil
  | cons t ts ih =>
    rw [treesFrags, List.flatMap_cons]
    exact (h t (List.mem_cons_self ..)).append (ih fun x hx => h x (List.mem_cons_of_mem _ hx))

theorem fold_group {g : String × List Tree} {e : Tree → List Str}
    (h : ∀ t ∈ g.2, Adds (treeFrags t) (e t)) (gs : List (Str × List Str)) :
    (groupFrags g).foldr fragStep ([], [], gs) =
      ([], [], ((headingLabel g.1).toList, g.2.flatMap e) :: gs) := by
  rw [groupFrags, List.foldr_append, List.foldr_append]
  have h0 : [tg "/div"].foldr fragStep ([], [], gs) = ([], [], gs) := by
    rw [List.foldr_cons, List.foldr_nil, step_tg (s := "/div") (by decide +kernel)]
  rw [h0, fold_trees h]
  simp only [List.foldr_cons, List.foldr_nil, List.append_nil]
  rw [step_tg (s := "/h2") (by decide +kernel)]
  have h1 : ∀ st : List Str × List (Str × List Str), fragStep (tg "h2")
      (fragStep (txt (headingLabel g.1)) ([], st)) = ([], [], ((headingLabel g.1).toList, st.1) :: st.2) := by
    intro st
    rw [tg, txt, fragStep, fragStep, pieceStep, if_pos rfl, List.append_nil]
  rw [h1, step_tg (s := "div class=\"change-category\"") (by decide +kernel)]

theorem fold_groups {gs : List (String × List Tree)} {e : Tree → List Str}
    (h : ∀ g ∈ gs, ∀ t ∈ g.2, Adds (treeFrags t) (e t)) (rest : List (Str × List Str)) :
    (gs.flatMap groupFrags).foldr fragStep ([], [], rest) =
      ([], [], gs.map (fun g => ((headingLabel g.1).toList, g.2.flatMap e)) ++ rest) := by
  induction gs with
  | nil => rfl
  | cons g gs ih =>
    rw [List.flatMap_cons, List.foldr_append, ih fun x hx => h x (List.mem_cons_of_mem _ hx),
      fold_group (h g (List.mem_cons_self ..))]
    rfl

/-- Pieces that show nothing, whatever text follows them. -/
def ShowsNothing (fs : List Frag) : Prop := ∀ st, (fs.foldr fragStep st).2 = st.2

theorem ShowsNothing.append {a b : List Frag} (h1 : ShowsNothing a) (h2 : ShowsNothing b) : ShowsNothing (a ++ b) := fun st => by
  rw [List.foldr_append, h1, h2]

theorem ShowsNothing.flatMap {α : Type} {f : α → List Frag} {l : List α} (h : ∀ x ∈ l, ShowsNothing (f x)) :
    ShowsNothing (l.flatMap f) := by
  induction l with
  | nil => exact fun _ => rfl
  | cons x l ih =>
    rw [List.flatMap_cons]
    exact (h x (List.mem_cons_self ..)).append (ih fun y hy => h y (List.mem_cons_of_mem _ hy))

/-- A piece that shows nothing. -/
def Frag.silent : Frag → Bool
  | .tag s => !decide (s = "h2".toList) && !"div class=\"Change ".toList.isPrefixOf s
  | _ => true

theorem shows_nothing_of {fs : List Frag} (h : ∀ f ∈ fs, f.silent = true) : ShowsNothing fs := by
  intro st
  induction fs with
  | nil => rfl
  | cons f fs ih =>
    rw [List.foldr_cons]
    have ih := ih fun x hx => h x (List.mem_cons_of_mem _ hx)
    have h1 := h f (List.mem_cons_self ..)
    cases f with
    | tag s =>
      simp only [Frag.silent, Bool.and_eq_true, Bool.not_eq_true', decide_eq_false_iff_not] at h1
      rw [step_other h1, ih]
    | esc s => exact ih
    | raw s => exact ih

/-- A tag that begins with another letter. -/
theorem shows_nothing_tag {c : Char} {pre x y : Str} (h1 : c ≠ 'h') (h2 : c ≠ 'd') (h : pre.head? = some c) :
    (Frag.tag (pre ++ x ++ y)).silent = true := by
  have e1 : "h2".toList = ['h', '2'] := by decide +kernel
  have e2 : "div class=\"Change ".toList = 'd' :: "iv class=\"Change ".toList := by decide +kernel
  rw [Frag.silent, e1, e2]
  cases pre with
  | nil => simp at h
  | cons d pre =>
    simp only [List.head?_cons, Option.some.injEq] at h
    subst h
    simp [List.isPrefixOf, h1, Ne.symm h2]

theorem shows_nothing_head (f : PageFrame) (title : String) (ht : f.title = txt title) :
    ShowsNothing (prologue ++ headFrags f ++ [tg "body"] ++ headingFrags f ++
      [tg "div id=\"report-intro\"", tg "/div"]) := by
  have e1 : ∀ s, (Frag.tag (styleLink s)).silent = true := by
    intro s
    unfold styleLink
    have h : "link rel=\"stylesheet\" type=\"text/css\" href=\"".toList.head? = some 'l' := by decide +kernel
    generalize "link rel=\"stylesheet\" type=\"text/css\" href=\"".toList = pre at *
    exact shows_nothing_tag (by decide) (by decide) h
  have e2 : ∀ s, (Frag.tag (scriptTag s)).silent = true := by
    intro s
    unfold scriptTag
    have h : "script type=\"text/javascript\" src=\"".toList.head? = some 's' := by decide +kernel
    generalize "script type=\"text/javascript\" src=\"".toList = pre at *
    exact shows_nothing_tag (by decide) (by decide) h
  have e3 : ∀ c, (Frag.tag (crumbTag c)).silent = true := by
    intro c
    unfold crumbTag
    have h : "a href=\"".toList.head? = some 'a' := by decide +kernel
    generalize "a href=\"".toList = pre at *
    exact shows_nothing_tag (by decide) (by decide) h
  have ht' : f.title.silent = true := by rw [ht]; rfl
  have h0 : ShowsNothing prologue := shows_nothing_of (by decide +kernel)
  have h1 : ShowsNothing (headFrags f) := by
    rw [headFrags]
    refine ((((shows_nothing_of ?_).append (shows_nothing_of ?_)).append (shows_nothing_of ?_)).append (.flatMap fun s _ =>
      shows_nothing_of ?_)).append (shows_nothing_of (by decide +kernel))
    · intro x hx
      simp only [List.mem_cons, List.not_mem_nil, or_false] at hx
      rcases hx with rfl | rfl | rfl | rfl
      · decide +kernel
      · decide +kernel
      · exact ht'
      · decide +kernel
    · intro x hx
      obtain ⟨s, _, rfl⟩ := List.mem_map.1 hx
      exact e1 _
    · cases f.noJquery <;> decide +kernel
    · intro x hx
      simp only [List.mem_cons, List.not_mem_nil, or_false] at hx
      rcases hx with rfl | rfl
      · exact e2 _
      · decide +kernel
  have h2 : ShowsNothing (headingFrags f) := by
    rw [headingFrags]
    refine ((shows_nothing_of (by decide +kernel)).append (.flatMap fun c _ => shows_nothing_of ?_)).append (shows_nothing_of ?_)
    · intro x hx
      simp only [List.mem_cons, List.not_mem_nil, or_false] at hx
      rcases hx with rfl | rfl | rfl | rfl | rfl
      · decide +kernel
      · exact e3 _
      · rfl
      · decide +kernel
      · decide +kernel
    · intro x hx
      simp only [List.mem_cons, List.not_mem_nil, or_false] at hx
      rcases hx with rfl | rfl | rfl | rfl | rfl | rfl | rfl | rfl
      · decide +kernel
      · exact ht'
      · decide +kernel
      · decide +kernel
      · decide +kernel
      · exact ht'
      · decide +kernel
      · decide +kernel
  exact (((h0.append h1).append (shows_nothing_of (by decide +kernel))).append h2).append
    (shows_nothing_of (by decide +kernel))

/-- The page of a JAR. -/
theorem fold_jarPage (f : PageFrame) (v : Verdict) (children : List Tree) {e : Tree → List Str}
    (h : ∀ t ∈ children, Adds (treeFrags t) (e t)) :
    ((jarPage f v children).foldr fragStep ([], [], [])).2.2 =
      (reportGroups Tree.type (fun t => jarOrig t.child) (fun t => t.child.entry) "SquashedChange" jarOrder
        children).map fun g => ((headingLabel g.1).toList, g.2.flatMap e) := by
  rw [jarPage, pageFrags, List.foldr_append, List.foldr_append]
  rw [shows_nothing_head _ "JarReport" rfl]
  have h1 : [tg "div id=\"report-outro\"", tg "/div", tg "/body", tg "/html"].foldr fragStep ([], [], []) =
      ([], [], []) := by decide +kernel
  rw [h1, List.foldr_append, List.foldr_append, List.foldr_append]
  have h2 : [tg "/div"].foldr fragStep ([], [], []) = ([], [], []) := by decide +kernel
  have h3 : [tg "/div", tg "!-- end jardiff_JarContentsReport.details --"].foldr fragStep ([], [], []) =
      ([], [], []) := by decide +kernel
  rw [h2, jarContentsFrags, List.foldr_append, List.foldr_append, h3, fold_groups (e := e) (fun g hg t ht => ?_),
    List.append_nil]
  · generalize List.map (fun g : String × List Tree => ((headingLabel g.1).toList, g.2.flatMap e)) _ = G
    have h4 : ∀ st, [tg "!-- begin jardiff_JarContentsReport.details --", tg "div class=\"details\""].foldr
        fragStep st = ([], st.2) := by
      intro st
      rw [List.foldr_cons, List.foldr_cons, step_tg (s := "div class=\"details\"") (by decide +kernel),
        step_tg (by decide +kernel)]
      rfl
    rw [h4]
    have h5 : ∀ type, type = "JarTypeChange" → ∀ n ∈ ["manifest_ManifestChange", "jardiff_JarContentChange",
        "jardiff_JarClassChange", "distdiff_DistContentChange", "distdiff_DistClassChange"],
        (templateOf type).getD [] ≠ n.toList := by
      intro type ht
      subst ht
      decide +kernel
    have h6 : ∀ p g, (treeFrags (.node "JarTypeChange" v "Jar type".toList [] [])).foldr fragStep ([], p, g) =
        ([], p, g) := by
      intro p g
      have h5 := h5 _ rfl
      rw [treeFrags, descriptionFrags, if_neg (h5 _ (by simp)), if_neg (fun h => by
        rcases h with h | h | h | h
        · exact h5 _ (by simp) h
        · exact h5 _ (by simp) h
        · exact h5 _ (by simp) h
        · exact h5 _ (by simp) h), changeDiv]
      simp only [List.isEmpty_nil, if_true, List.append_nil, List.cons_append, List.nil_append,
        List.foldr_cons, List.foldr_nil]
      rw [step_tg (s := "/div") (by decide +kernel), step_tg (s := "/div") (by decide +kernel),
        step_tg (s := "div class=\"description\"") (by decide +kernel), step_change]
      rfl
    rw [h6, List.foldr_cons, step_tg (by decide +kernel)]
    rfl
  · have := (C153_shown Tree.type (fun t => jarOrig t.child) (fun t => t.child.entry) "SquashedChange"
      jarOrder children (t := g.1) (cs := g.2) hg).1 t ht
    exact h t this.1

/-! ### C170 -/

/-- The heading that an event and the kind of an entry call for. -/
def entryHeading : Event → EntryKind → String
  | .same, .manifest | .diff, .manifest => "Jar Manifest"
  | .same, .sigfile | .diff, .sigfile => "Jar Signature File"
  | .same, .sigblock | .diff, .sigblock => "Jar Signature Block File"
  | .same, .cls | .diff, .cls => "Java Class"
  | .same, .other => "Jar Content"
  | .diff, .other => "Jar Generic File"
  | .left, .sigfile => "Jar Signature File Removed"
  | .left, .sigblock => "Jar Signature Block File Removed"
  | .left, .cls => "Java Class Removed"
  | .left, _ => "Jar Content Removed"
  | .right, .sigfile => "Jar Signature File Added"
  | .right, .sigblock => "Jar Signature Block File Added"
  | .right, .cls => "Java Class Added"
  | .right, _ => "Jar Content Added"

/-- The order of the headings. -/
def pageHeadings : List String := ["Jar Manifest",
  "Jar Signature File Added", "Jar Signature File Removed", "Jar Signature File",
  "Jar Signature Block File Added", "Jar Signature Block File Removed", "Jar Signature Block File",
  "Jar Content Added", "Jar Content Removed", "Jar Content",
  "Java Class Added", "Java Class Removed", "Java Class", "Jar Generic File"]

/-- Under each heading are some entries, in order; altogether they are the entries of the two
archives, each once and under the heading for what happened to it. -/
def ShowsJars (up : Char → Str) (l r : Archive) (shown : List (Str × List Str)) : Prop :=
  ∃ (evs : List (Event × Str)) (kind : Str → EntryKind), Partition l r evs ∧ (∀ f, KindOf up f (kind f)) ∧
    (shown.flatMap fun g => g.2.map fun e => (g.1, e)).Perm
      (evs.map fun p => ((entryHeading p.1 (kind p.2)).toList, xmlEscape p.2)) ∧
    (shown.map Prod.fst).Sublist (pageHeadings.map String.toList) ∧
    ∀ g ∈ shown, g.2 ≠ [] ∧ ∃ es : List Str, g.2 = es.map xmlEscape ∧ es.Pairwise (· < ·)

/-- C170 in full: for all archives, whatever the names of their entries. -/
def C170_full : Prop := ∀ (E : JarEnv) (l r : Archive) (o : DiffOpts) (f : PageFrame) (page : List Frag),
  IsUpper E.up → IsSetOrder E.order → ReadableJars l r → f.Plain → jarReportPage E l r o f = .ok page →
  ShowsJars E.up l r (shownOn (renderFrags page))

theorem entryHeading_label (ev : Event) (k : EntryKind) :
    headingLabel (entryClass ev k) = entryHeading ev k := by
  cases ev <;> cases k <;> decide +kernel

theorem entryClass_listed (ev : Event) (k : EntryKind) :
    entryClass ev k ∈ jarOrder ∨ entryClass ev k = "JarGenericFileChange" := by
  cases ev <;> cases k <;> decide +kernel

theorem page_labels : (distinct jarOrder ++ ["JarGenericFileChange"]).map
    (fun t => (headingLabel t).toList) = pageHeadings.map String.toList := by decide +kernel

/-- Where the page comes from. -/
theorem jarReportPage_ok {E : JarEnv} {l r : Archive} {o : DiffOpts} {f : PageFrame} {page : List Frag}
    (h : jarReportPage E l r o f = .ok page) {cs : List (Change DiffOpts)}
    (hcs : jarContentsChildren E l r = .ok cs) :
    ∃ v cs' b, reportAll o cs false = .ok (cs', b) ∧ page = jarPage f v (treesOf o cs') := by
  unfold jarReportPage jarReportCheck at h
  rw [hcs] at h
  cases ht : (jarTypeChange l r).check with
  | error e => rw [ht] at h; simp at h
  | ok t =>
    rw [ht] at h
    simp only at h
    cases hr : reportAll o cs false with
    | error e => rw [hr] at h; simp at h
    | ok p =>
      obtain ⟨cs', b⟩ := p
      rw [hr] at h
      simp only [Change.collect, Except.ok.injEq] at h
      exact ⟨_, cs', b, rfl, h.symm⟩

/-- What the groups show, when the trees show the events. -/
theorem groups_shown {orig : Child → String} {order : List String} {extra : Option String}
    {trees : List Tree} {evs : List (Event × Str)} {cls : Event × Str → String}
    (hentry : ∀ t ∈ trees, ∃ p ∈ evs, ShowsEntry orig True t (cls p) p.2)
    (hpairs : (trees.map fun t => (headingOf Tree.type (fun t => orig t.child) "SquashedChange" t,
      t.child.entry)).Perm (evs.map fun p => (cls p, p.2)))
    (hnodup : (evs.map Prod.snd).Nodup) (hname : ∀ p ∈ evs, p.2 ≠ [])
    (hlisted : ∀ p ∈ evs, cls p ∈ order ∨ extra = some (cls p)) :
    let shown := (reportGroups Tree.type (fun t => orig t.child) (fun t => t.child.entry) "SquashedChange"
      order trees).map fun g => ((headingLabel g.1).toList, g.2.flatMap fun t => entryShown t.child.entry)
    (shown.flatMap fun g => g.2.map fun e => (g.1, e)).Perm
      (evs.map fun p => ((headingLabel (cls p)).toList, xmlEscape p.2)) ∧
    (shown.map Prod.fst).Sublist
      ((distinct order ++ extra.toList).map fun t => (headingLabel t).toList) ∧
    ∀ g ∈ shown, g.2 ≠ [] ∧ ∃ es : List Str, g.2 = es.map xmlEscape ∧ es.Pairwise (· < ·) := by
  intro shown
  have htext : ∀ t ∈ trees, entryShown t.child.entry = [xmlEscape t.child.entry] := by
    intro t ht
    obtain ⟨p, hp, hs⟩ := hentry t ht
    rw [hs.entry, entryShown, if_neg (hname p hp)]
  have hshown := fun g hg => C153_shown Tree.type (fun t => orig t.child) (fun t => t.child.entry)
    "SquashedChange" order trees (t := (g : String × List Tree).1) (cs := g.2) hg
  have hheads := C153_headings Tree.type (fun t => orig t.child) (fun t => t.child.entry)
    "SquashedChange" order trees
  have hexact := C153_exact Tree.type (fun t => orig t.child) (fun t => t.child.entry)
    "SquashedChange" order trees
  have honce := C153_once Tree.type (fun t => orig t.child) (fun t => t.child.entry)
    "SquashedChange" order trees
  unfold shown
  clear shown
  generalize reportGroups Tree.type (fun t => orig t.child) (fun t => t.child.entry)
    "SquashedChange" order trees = G at *
  have htexts : ∀ g ∈ G, (g.2.flatMap fun t => entryShown t.child.entry) =
      (g.2.map fun t => t.child.entry).map xmlEscape := by
    intro g hg
    have : ∀ ts : List Tree, (∀ t ∈ ts, t ∈ trees) →
        (ts.flatMap fun t => entryShown t.child.entry) = (ts.map fun t => t.child.entry).map xmlEscape := by
      intro ts hts
      induction ts with
      | nil => rfl
      | cons t ts ih =>
        rw [List.flatMap_cons, List.map_cons, List.map_cons, ih fun x hx => hts x (List.mem_cons_of_mem _ hx),
          htext t (hts t (List.mem_cons_self ..))]
        rfl
    exact this g.2 fun t ht => ((hshown g hg).1 t ht).1
  refine ⟨?_, ?_, ?_⟩
  · have e1 : ((G.map fun g => ((headingLabel g.1).toList, g.2.flatMap fun t => entryShown t.child.entry)).flatMap
        fun g => g.2.map fun e => (g.1, e)) = (G.flatMap Prod.snd).map fun t =>
        ((headingLabel (headingOf Tree.type (fun t => orig t.child) "SquashedChange" t)).toList,
          xmlEscape t.child.entry) := by
      clear hheads hexact honce
      induction G with
      | nil => rfl
      | cons g G ih =>
        rw [List.map_cons, List.flatMap_cons, List.flatMap_cons, List.map_append,
          ih (fun x hx => hshown x (List.mem_cons_of_mem _ hx)) (fun x hx => htexts x (List.mem_cons_of_mem _ hx)),
          htexts g (List.mem_cons_self ..), List.map_map, List.map_map]
        refine congrArg (· ++ _) (List.map_congr_left fun t ht => ?_)
        have e := ((hshown g (List.mem_cons_self ..)).1 t ht).2
        show ((headingLabel g.1).toList, xmlEscape t.child.entry) = (_, _)
        rw [e]
    rw [e1]
    have hnd : (trees.map fun t =>
        (headingOf Tree.type (fun t => orig t.child) "SquashedChange" t, t.child.entry)).Nodup := by
      rw [hpairs.nodup_iff]
      have hn := hnodup
      rw [List.Nodup, List.pairwise_map] at hn ⊢
      exact hn.imp fun h e => h (Prod.mk.inj e).2
    refine ((honce hnd).map _).trans ?_
    have e3 := hpairs.map fun q : String × Str => ((headingLabel q.1).toList, xmlEscape q.2)
    rw [List.map_map, List.map_map] at e3
    exact e3
  · obtain ⟨rest, hr1, hr2, hr3⟩ := hexact
    rw [List.map_map]
    have e1 : G.map (Prod.fst ∘ fun g : String × List Tree => ((headingLabel g.1).toList,
        g.2.flatMap fun t => entryShown t.child.entry)) =
        (G.map Prod.fst).map fun t => (headingLabel t).toList := by
      rw [List.map_map]; rfl
    rw [e1]
    refine List.Sublist.map _ ?_
    rw [hr3, List.map_map]
    have e2 : ∀ (l : List String) (h : String → List Tree), l.map (Prod.fst ∘ fun t => (t, h t)) = l := by
      intro l h
      induction l with
      | nil => rfl
      | cons x l ih => rw [List.map_cons, ih]; rfl
    rw [e2]
    refine List.Sublist.append (List.filter_sublist) ?_
    have hrest : ∀ t ∈ rest, extra = some t := by
      intro t ht
      obtain ⟨hno, c, hc, he⟩ := (hr2 t).1 ht
      obtain ⟨p, hp, hs⟩ := hentry c hc
      rw [hs.heading] at he
      rcases hlisted p hp with h8 | h8
      · exact absurd (he ▸ h8) hno
      · rw [h8, he]
    match rest, hr1, hrest with
    | [], _, _ => simp
    | [x], _, hx => rw [hx x (by simp)]; exact List.Sublist.refl _
    | x :: y :: _, hn, hx =>
      have := hx x (by simp)
      have h9 := hx y (by simp)
      rw [this, Option.some.injEq] at h9
      rw [h9] at hn
      simp at hn
  · intro g hg
    obtain ⟨g', hg', rfl⟩ := List.mem_map.1 hg
    simp only
    rw [htexts g' hg']
    refine ⟨?_, _, rfl, ?_⟩
    · have := hheads.2.2 g' hg'
      simp [this]
    · rw [List.pairwise_map]
      exact (hshown g' hg').2

/-- An event is known by what becomes of it. -/
theorem event_eq {a b : Event} (h1 : eventKind a = eventKind b) (h2 : a ≠ .same ↔ b ≠ .same) : a = b := by
  cases a <;> cases b <;> simp_all [eventKind]

/-- C170, proved part: no entry has an empty name, and no class that both archives have with different
contents has quotes in its name. -/
theorem C170_partial (E : JarEnv) (hup : IsUpper E.up) (ho : IsSetOrder E.order) (l r : Archive)
    (hlr : ReadableJars l r) (hl0 : [] ∉ names l) (hr0 : [] ∉ names r)
    (hq : ∀ n b c, HasContent l n b → HasContent r n c → b ≠ c → KindOf E.up n .cls → '"' ∉ n) (o : DiffOpts) (f : PageFrame) (hf : f.Plain)
    (page : List Frag) (h : jarReportPage E l r o f = .ok page) :
    ShowsJars E.up l r (shownOn (renderFrags page)) := by
  obtain ⟨evs, cs, h1, h2, h3, h4⟩ := C67_partition E hup ho l r hlr.leftOpen hlr.rightOpen
    hlr.leftConsistent hlr.rightConsistent hlr.leftZip hlr.rightZip hlr.named
  obtain ⟨v, cs', b, h5, rfl⟩ := jarReportPage_ok h h1
  have hfrom : ∀ c ∈ cs, ∃ p ∈ evs, c = jarEntryChange E l r p := by
    intro c hc
    obtain ⟨p, hp, rfl⟩ := List.mem_map.1 (h3.mem_iff.1 hc)
    exact ⟨p, hp, rfl⟩
  obtain ⟨h6, h7⟩ := report_trees E hup l r o cs
    (fun c hc => by obtain ⟨p, _, hp⟩ := hfrom c hc; exact ⟨p, hp⟩) false cs' b h5
  -- what is known of the names
  have hname : ∀ p ∈ evs, p.2 ≠ [] ∧ (p.1 = .diff → KindOf E.up p.2 .cls → '"' ∉ p.2) := by
    rintro ⟨ev, n⟩ hp
    have hc : ∀ {a : Archive} {n : Str} {b : Bytes}, HasContent a n b → n ∈ names a := by
      rintro a n b ⟨pre, e, post, he, hn, _⟩
      exact List.mem_map.2 ⟨e, by rw [he]; simp, hn⟩
    cases ev with
    | left => exact ⟨fun e => hl0 (e ▸ ((h2.left n).1 hp).1), by simp⟩
    | right => exact ⟨fun e => hr0 (e ▸ ((h2.right n).1 hp).2), by simp⟩
    | same =>
      obtain ⟨_, b, hb, hc'⟩ := (h2.same n).1 hp
      exact ⟨fun e => hl0 (e ▸ hc hb), by simp⟩
    | diff =>
      obtain ⟨_, b, c, hb, hc', hne⟩ := (h2.diff n).1 hp
      exact ⟨fun e => hl0 (e ▸ hc hb), fun _ => hq n b c hb hc' hne⟩
  -- the trees
  have hentry : ∀ t ∈ treesOf o cs', ∃ p ∈ evs, ∃ k, KindOf E.up p.2 k ∧ 
      ShowsEntry jarOrig (p.1 = .diff ∧ k = .cls) t (entryClass p.1 k) p.2 := by
    intro t ht
    obtain ⟨ev, n, k, hm, hk, hs⟩ := h7 t ht
    obtain ⟨⟨ev', n'⟩, hp, he⟩ := hfrom _ hm
    obtain ⟨k', hk', _⟩ := kindOf_unique E.up n'
    have e1 := C67_entry E hup l r ev n k hk
    have e2 := C67_entry E hup l r ev' n' k' hk'
    rw [he] at e1
    have e3 : n' = n := Option.some.inj (e2.2.1.symm.trans e1.2.1)
    subst e3
    obtain rfl : k' = k := by
      obtain ⟨_, _, hu⟩ := kindOf_unique E.up n'
      exact (hu _ hk').trans (hu _ hk).symm
    obtain rfl : ev' = ev := event_eq (e2.2.2.1.symm.trans e1.2.2.1) (e2.2.2.2.symm.trans e1.2.2.2)
    exact ⟨(ev', n'), hp, k', hk', hs⟩
  have hclass : ∀ c ∈ treesClasses (treesOf o cs'), '"' ∉ c.toList := by
    intro c hc
    obtain ⟨t, ht, hc⟩ := mem_treesClasses.1 hc
    obtain ⟨p, _, k, _, hs⟩ := hentry t ht
    exact (hs.classes c hc).quote
  have hlink : ∀ s ∈ treesLinks (treesOf o cs'), '"' ∉ s := by
    intro s hs
    obtain ⟨t, ht, hs⟩ := mem_treesLinks.1 hs
    obtain ⟨p, hp, k, hk, hst⟩ := hentry t ht
    rcases hst.links s hs with ⟨rfl, he, rfl⟩ | hno
    · exact (hname p hp).2 he hk
    · exact hno
  have hclean := (runs_jar (b := false) hf (by simp) v hclass hlink).clean
  have hadds : ∀ t ∈ treesOf o cs', Adds (treeFrags t) (entryShown t.child.entry) := by
    intro t ht
    obtain ⟨p, _, k, _, hs⟩ := hentry t ht
    rw [hs.entry]
    exact hs.adds
  rw [shownOn_render hclean, fold_jarPage f v _ hadds]
  -- the groups
  obtain ⟨kind, hkind⟩ : ∃ kind : Str → EntryKind, ∀ n, KindOf E.up n (kind n) :=
    ⟨fun n => Classical.choose (kindOf_unique E.up n), fun n => (Classical.choose_spec (kindOf_unique E.up n)).1⟩
  have hpairs : (cs.map fun c => (c.hdr.typeName, c.hdr.entry.getD [])).Perm
      (evs.map fun p => (entryClass p.1 (kind p.2), p.2)) := by
    refine (h3.map _).trans ?_
    rw [List.map_map]
    refine List.Perm.of_eq (List.map_congr_left fun p _ => ?_)
    obtain ⟨e1, e2, _⟩ := C67_entry E hup l r p.1 p.2 (kind p.2) (hkind p.2)
    simp only [Function.comp]
    rw [e1, e2]
    rfl
  have hg := groups_shown (cls := fun p => entryClass p.1 (kind p.2)) (extra := some "JarGenericFileChange")
    (order := jarOrder) (fun t ht => by
      obtain ⟨p, hp, k, hk, hs⟩ := hentry t ht
      obtain ⟨k', _, hu⟩ := kindOf_unique E.up p.2
      exact ⟨p, hp, by rw [hu _ (hkind p.2), ← hu k hk]; exact hs.weaken fun _ => trivial⟩)
    ((List.Perm.of_eq h6).trans hpairs) h2.once (fun p hp => (hname p hp).1)
    (fun p _ => (entryClass_listed p.1 (kind p.2)).imp_right fun h => by rw [h])
  refine ⟨evs, kind, h2, hkind, ?_, ?_, hg.2.2⟩
  · refine hg.1.trans (List.Perm.of_eq (List.map_congr_left fun p _ => ?_))
    rw [entryHeading_label]
  · rw [← page_labels]
    exact hg.2.1

/-- An entry with this name breaks out of its link. -/
def evilName : Str := "\"><h2>x</h2><a id=\".class".toList

theorem evil_shown : (match jarReportPage demoEnv (slipJar evilName 1) (slipJar evilName 0) (jarOpts [] [])
      (bareFrame true) with
    | .ok page => some ((shownOn (renderFrags page)).map Prod.fst)
    | .error _ => none) = some ["Java Class".toList, "x".toList] := by decide +kernel

theorem C170_full_fails : ¬ C170_full := by
  intro h
  have hs := evil_shown
  cases hp : jarReportPage demoEnv (slipJar evilName 1) (slipJar evilName 0) (jarOpts [] [])
      (bareFrame true) with
  | error e => rw [hp] at hs; simp at hs
  | ok page =>
    rw [hp] at hs
    simp only [Option.some.injEq] at hs
    obtain ⟨evs, kind, _, _, _, h1, _⟩ := h demoEnv _ _ _ _ page upLongS_isUpper dedup_isSetOrder
      ⟨rfl, rfl, zipOf_consistent _ _, zipOf_consistent _ _, rfl, rfl, by decide +kernel⟩ (bare_plain true) hp
    rw [hs] at h1
    have h2 := h1.subset (a := "x".toList) (by simp)
    revert h2
    decide +kernel

/-- Two JARs with a changed class, an added file and a changed file. -/
example : (match jarReportPage demoEnv
      (zipOf false [("B.class".toList, (tinyClass 1).enc), ("a.txt".toList, [1]), ("<b>".toList, [1])])
      (zipOf false [("B.class".toList, (tinyClass 0).enc), ("new".toList, []), ("a.txt".toList, [2]),
        ("<b>".toList, [1])]) (jarOpts [] []) (bareFrame true) with
    | .ok page => some (shownOn (renderFrags page))
    | .error _ => none) = some [
      ("Jar Content Added".toList, ["new".toList]), ("Jar Content".toList, ["&lt;b&gt;".toList]),
      ("Java Class".toList, ["B.class".toList]), ("Jar Generic File".toList, ["a.txt".toList])] := by
  decide +kernel

end Javatools
