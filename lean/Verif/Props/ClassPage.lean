import Verif.Props.JarPage
import Verif.Props.Markup
import Verif.Model.ClassPage
/-
Reading the blocks of members back from a page.
-/
namespace Javatools
open Spec

/-! ### Reading the page -/

/-- A heading waits for the tag in front of it. -/
def headStep (p : Str × Str) (st : Option Str × List (Str × Str)) : Option Str × List (Str × Str) :=
  (if p.1 = "h3".toList then some p.2 else none,
    match st.1 with
    | some s => (p.1, s) :: st.2
    | none => st.2)

/-- The headings of a page, each with the tag directly in front of it. -/
def headedOn (page : Str) : List (Str × Str) := ((piecesFrom none page).2.foldr headStep (none, [])).2

/-- What is between blanks. -/
def spaceWords : Str → List Str
  | [] => [[]]
  | c :: s =>
    if c = ' ' then [] :: spaceWords s
    else
      match spaceWords s with
      | w :: ws => (c :: w) :: ws
      | [] => [[c]]

/-- The words of the attribute `class`, if it is the first one of a `div`. -/
def classWords (tag : Str) : List Str :=
  if "div class=\"".toList.isPrefixOf tag then
    spaceWords ((tag.drop "div class=\"".toList.length).takeWhile fun c => c ≠ '"')
  else []

/-- The members of a kind that the page has headings for: the rest of the name of the class of the
change, and the heading as it is shown. -/
def shownMembers (what : Str) (page : Str) : List (Str × Str) :=
  (headedOn page).filterMap fun x =>
    match classWords x.1 with
    | _ :: k :: _ => if what.isPrefixOf k then some (k.drop what.length, htmlText x.2) else none
    | _ => none

example : headedOn "<div class=\"Change FieldChange is_changed\"><h3>a</h3><b></b></div>".toList =
    [("div class=\"Change FieldChange is_changed\"".toList, "a".toList)] := by decide +kernel

example : shownMembers "Field".toList
      "<div class=\"Change FieldChange is_changed\"><h3>a</h3><b></b></div><div class=\"Change MethodAdded\"><h3>b</h3></div>".toList =
    [("Change".toList, "a".toList)] := by decide +kernel

/-! ### Pieces -/

def headFrag (f : Frag) (st : Str × Option Str × List (Str × Str)) : Str × Option Str × List (Str × Str) :=
  match f with
  | .tag s => ([], headStep (s, st.1) st.2)
  | .esc s => (xmlEscape s ++ st.1, st.2)
  | .raw s => (s ++ st.1, st.2)

theorem headed_render {fs : List Frag} (h : fs.all Frag.clean = true) :
    fs.foldr headFrag ([], none, []) =
      ((piecesFrom none (renderFrags fs)).1,
        (piecesFrom none (renderFrags fs)).2.foldr headStep (none, [])) := by
  induction fs with
  | nil => rfl
  | cons f fs ih =>
    simp only [List.all_cons, Bool.and_eq_true] at h
    rw [List.foldr_cons, ih h.2]
    cases f with
    | tag s =>
      have h1 : tagOk false s = true := h.1
      rw [renderFrags, List.cons_append, piecesFrom, if_pos rfl, pieces_tag s false [] _ h1]
      rfl
    | esc s => rw [renderFrags, pieces_text _ _ (C116_inert s).1]; rfl
    | raw s =>
      have h1 : '<' ∉ s := by simpa [Frag.clean] using h.1
      rw [renderFrags, pieces_text _ _ h1]; rfl

theorem headedOn_render {fs : List Frag} (h : fs.all Frag.clean = true) :
    headedOn (renderFrags fs) = (fs.foldr headFrag ([], none, [])).2.2 := by
  rw [headed_render h]; rfl

/-- These pieces have these headings. -/
structure Heads (fs : List Frag) (hs : List (Str × Str)) : Prop where
  run : ∀ t g, ∃ t', fs.foldr headFrag (t, none, g) = (t', none, hs ++ g)

theorem Heads.nil : Heads [] [] := ⟨fun t _ => ⟨t, rfl⟩⟩

theorem Heads.append {a b : List Frag} {x y : List (Str × Str)} (h1 : Heads a x) (h2 : Heads b y) :
    Heads (a ++ b) (x ++ y) := ⟨fun t g => by
  obtain ⟨t1, e1⟩ := h2.run t g
  obtain ⟨t2, e2⟩ := h1.run t1 (y ++ g)
  exact ⟨t2, by rw [List.foldr_append, e1, e2, List.append_assoc]⟩⟩

theorem Heads.flatMap {α : Type} {f : α → List Frag} {g : α → List (Str × Str)} {l : List α}
    (h : ∀ x ∈ l, Heads (f x) (g x)) : Heads (l.flatMap f) (l.flatMap g) := by
  induction l with
  | nil => exact .nil
  | cons a l ih =>
    rw [List.flatMap_cons, List.flatMap_cons]
    exact (h a (by simp)).append (ih fun x hx => h x (by simp [hx]))

/-- A piece that is not the start of a heading. -/
theorem Heads.other {f : Frag} (h : f ≠ tg "h3") {fs : List Frag} {x : List (Str × Str)} (hf : Heads fs x) :
    Heads (f :: fs) x := ⟨fun t g => by
  obtain ⟨t1, e1⟩ := hf.run t g
  rw [List.foldr_cons, e1]
  cases f with
  | tag s =>
    have : s ≠ "h3".toList := fun e => h (by rw [e]; rfl)
    exact ⟨[], by rw [headFrag, headStep, if_neg this]⟩
  | esc s => exact ⟨_, rfl⟩
  | raw s => exact ⟨_, rfl⟩⟩

/-- Pieces without headings. -/
theorem Heads.plain' {fs : List Frag} (h : tg "h3" ∉ fs) : Heads fs [] := by
  induction fs with
  | nil => exact .nil
  | cons f fs ih =>
    simp only [List.mem_cons, not_or] at h
    exact .other (fun e => h.1 e.symm) (ih h.2)

theorem divTag_ne (s : String) : tg ("div class=\"" ++ s ++ "\"") ≠ tg "h3" := by
  have hd : "div class=\"".toList = 'd' :: "iv class=\"".toList := by decide +kernel
  have hh : "h3".toList = ['h', '3'] := by decide +kernel
  unfold tg
  rw [String.toList_append, String.toList_append, hd, hh]
  simp

/-- A block with a heading. -/
theorem Heads.block {s : String} {name : Str} {fs : List Frag} (h : Heads fs []) :
    Heads (tg ("div class=\"" ++ s ++ "\"") :: tg "h3" :: .esc name :: tg "/h3" :: fs)
      [(("div class=\"" ++ s ++ "\"").toList, xmlEscape name)] := ⟨fun t g => by
  obtain ⟨t1, e1⟩ := h.run t g
  refine ⟨[], ?_⟩
  have h3 : ("/h3" : String).toList ≠ "h3".toList := by decide +kernel
  have hd : ("div class=\"" ++ s ++ "\"").toList ≠ "h3".toList := fun e => divTag_ne s (by unfold tg; rw [e])
  simp only [List.foldr_cons, e1, headFrag, tg, headStep]
  rw [if_neg h3, if_neg hd]
  simp⟩

/-! ### The parts of a page -/

/-- No heading begins here. -/
structure NoH3 (fs : List Frag) : Prop where
  none : tg "h3" ∉ fs

theorem NoH3.append {a b : List Frag} (h1 : NoH3 a) (h2 : NoH3 b) : NoH3 (a ++ b) :=
  ⟨fun h => (List.mem_append.1 h).elim h1.none h2.none⟩

theorem NoH3.cons {f : Frag} {fs : List Frag} (h1 : f ≠ tg "h3") (h2 : NoH3 fs) : NoH3 (f :: fs) :=
  ⟨fun h => (List.mem_cons.1 h).elim (fun e => h1 e.symm) h2.none⟩

theorem NoH3.nil : NoH3 [] := ⟨List.not_mem_nil⟩

theorem NoH3.esc {s : Str} {fs : List Frag} (h : NoH3 fs) : NoH3 (.esc s :: fs) := h.cons (by simp [tg])

theorem NoH3.raw {s : Str} {fs : List Frag} (h : NoH3 fs) : NoH3 (.raw s :: fs) := h.cons (by simp [tg])

theorem NoH3.flatMap {α : Type} {f : α → List Frag} {l : List α} (h : ∀ x ∈ l, NoH3 (f x)) :
    NoH3 (l.flatMap f) :=
  ⟨fun hm => by
    obtain ⟨x, hx, h2⟩ := List.mem_flatMap.1 hm
    exact (h x hx).none h2⟩

theorem Heads.plain {fs : List Frag} (h : NoH3 fs) : Heads fs [] := .plain' h.none

theorem tg_ne {s : String} (h : s ≠ "h3") : tg s ≠ tg "h3" := fun e => by
  unfold tg at e
  simp only [Frag.tag.injEq, String.toList_inj] at e
  exact h e

theorem NoH3.tg {s : String} {fs : List Frag} (hs : s ≠ "h3") (h : NoH3 fs) : NoH3 (tg s :: fs) :=
  h.cons (tg_ne hs)

/-- A list of pieces that are given one by one. -/
macro "noh3" : tactic => `(tactic| repeat' (first
  | with_reducible refine NoH3.append ?_ ?_
  | exact NoH3.nil
  | with_reducible exact NoH3.esc NoH3.nil
  | with_reducible refine NoH3.esc ?_
  | with_reducible refine NoH3.raw ?_
  | (unfold txt; with_reducible refine NoH3.raw ?_)
  | with_reducible refine NoH3.tg (by decide) ?_))

theorem NoH3.div {type : String} {v : Verdict} {fs : List Frag} (h : NoH3 fs) : NoH3 (changeDiv type v fs) := by
  unfold changeDiv
  refine NoH3.append (NoH3.cons (divTag_ne _) h) ?_
  noh3

theorem noH3_subRow (spec : RowSpec) (s : Sub) : NoH3 (subRow spec s) := by
  unfold subRow RowSpec.text
  split
  · cases spec.escapes <;> cases spec.marks <;> simp only [reduceIte, Bool.false_eq_true] <;> noh3
  · split
    · cases spec.escapes <;> cases spec.closes <;> simp only [reduceIte, Bool.false_eq_true] <;> noh3
    · noh3

theorem noH3_subRows (specs : List RowSpec) (subs : List Sub) : NoH3 (subRows specs subs) := by
  induction specs generalizing subs with
  | nil => exact .nil
  | cons spec specs ih =>
    cases subs with
    | nil => exact .nil
    | cons s subs => exact (noH3_subRow spec s).append (ih subs)

theorem noH3_leftTable (specs : List RowSpec) (subs : List Sub) : NoH3 (leftTable specs subs) :=
  ((show NoH3 _ by noh3).append (noH3_subRows specs subs)).append (by noh3)

theorem noH3_anno (type label : String) (a : AnnoView) : NoH3 (annoFrags type label a) := by
  refine NoH3.div (((show NoH3 _ by noh3).append ?_).append (by noh3))
  split
  · refine ((show NoH3 _ by noh3).append (.flatMap fun r _ => ?_)).append (by noh3)
    cases r.changed <;> noh3
  · exact ((show NoH3 _ by noh3).append (.flatMap fun r _ => by noh3)).append
      (by noh3)

theorem noH3_heading (type label : String) (desc : Str) : NoH3 (subHeading type label desc) := by
  have hd : "h2 id=\"".toList = 'h' :: '2' :: " id=\"".toList := by decide +kernel
  have hh : "h3".toList = ['h', '3'] := by decide +kernel
  have : tg "h3" ≠ tg ("h2 id=\"" ++ type ++ "\"") := by
    unfold tg
    rw [String.toList_append, String.toList_append, hd, hh]
    simp
  unfold subHeading
  refine NoH3.cons this.symm ?_
  noh3

theorem noH3_pool (p : PoolView) : NoH3 (poolFrags p) := by
  refine NoH3.div ((((noH3_heading ..).append (by noh3)).append ?_).append (by noh3))
  split
  · refine ((show NoH3 _ by noh3).append (.flatMap fun r _ => ?_)).append (by noh3)
    unfold poolDualRow
    cases r.right <;> dsimp only <;> noh3
  · exact ((show NoH3 _ by noh3).append (.flatMap fun r _ => by noh3)).append
      (by noh3)

theorem cellTag_ne (c : Cell) : Frag.tag (cellTag c) ≠ tg "h3" := by
  have hd : "td".toList = ['t', 'd'] := by decide +kernel
  have hh : "h3".toList = ['h', '3'] := by decide +kernel
  unfold cellTag tg
  rw [hd, hh]
  intro e
  injection e with e
  injection e with e _
  exact absurd e (by decide)

theorem noH3_code (c : CodeView) : NoH3 (codeFrags c) := by
  refine NoH3.div (((show NoH3 _ by unfold plainDescription; noh3).append ?_).append (by noh3))
  split
  · noh3
  · refine ((show NoH3 _ by
      unfold codeHeadDual codeHeadSingle; split <;> noh3).append
      (.flatMap fun r _ => ?_)).append (by noh3)
    refine NoH3.append (NoH3.tg (by decide) (.flatMap fun x _ => .cons (cellTag_ne x) (by noh3))) (by noh3)

theorem noH3_collect {fs : List Frag} (h : NoH3 fs) : NoH3 (collectDiv fs) := by
  unfold collectDiv
  exact (NoH3.tg (by decide) h).append (by noh3)

/-- The class of the change, the verdict and the heading of a member that has one. -/
def MemberView.heading : MemberView → Option (String × Verdict × Str)
  | .field v name _ _ _ => some ("FieldChange", v, name)
  | .method v head _ _ _ _ => some ("MethodChange", v, head)
  | .methodAdded v head _ => some ("MethodAdded", v, head)
  | .methodRemoved v head _ => some ("MethodRemoved", v, head)
  | .fieldAdded _ => none
  | .fieldRemoved _ => none

def blockHeading (h : String × Verdict × Str) : Str × Str :=
  (("div class=\"" ++ divClasses h.1 h.2.1 ++ "\"").toList, xmlEscape h.2.2)

theorem heads_member (k : MemberView) : Heads (memberFrags k) (k.heading.map blockHeading).toList := by
  cases k with
  | field v name subs a b =>
    exact .block (.plain (((noH3_leftTable _ _).append (noH3_collect ((noH3_anno ..).append (noH3_anno ..)))).append
      (by noh3)))
  | method v head subs a b c =>
    exact .block (.plain (((noH3_leftTable _ _).append (noH3_collect
      (((noH3_anno ..).append (noH3_anno ..)).append (noH3_code c)))).append (by noh3)))
  | methodAdded v head subs =>
    refine .block (.plain ((((show NoH3 _ from ?_).append (noH3_subRows lonelyRows subs)).append
      (show NoH3 [tg "/table", tg "/div", tg "/div"] by noh3)).append (show NoH3 [tg "/div"] by noh3)))
    noh3
  | methodRemoved v head subs =>
    exact .block (.plain (((show NoH3 _ by noh3).append (noH3_leftTable lonelyRows subs)).append
      (show NoH3 [tg "/div"] by noh3)))
  | fieldAdded v => exact .plain (.div (by unfold plainDescription; noh3))
  | fieldRemoved v => exact .plain (.div (by unfold plainDescription; noh3))

theorem heads_members (type label : String) (m : MembersView) :
    Heads (membersFrags type label m) (m.kids.flatMap fun k => (k.heading.map blockHeading).toList) := by
  have hk : Heads (if m.kids.isEmpty then [] else collectDiv (m.kids.flatMap memberFrags))
      (m.kids.flatMap fun k => (k.heading.map blockHeading).toList) := ?_
  · have := Heads.other (divTag_ne (divClasses type m.verdict))
      (((Heads.plain (noH3_heading type label m.desc)).append hk).append
        (.plain (show NoH3 [tg "/div"] by noh3)))
    rw [List.nil_append, List.append_nil] at this
    exact this
  split
  · rename_i h
    rw [List.isEmpty_iff] at h
    rw [h]
    exact .nil
  · unfold collectDiv
    refine .other (tg_ne (by decide)) ?_
    have := (Heads.flatMap fun k (_ : k ∈ m.kids) => heads_member k).append
      (.plain (show NoH3 [tg "/div"] by noh3))
    rw [List.append_nil] at this
    exact this

/-- The headings of a page. -/
theorem headedOn_page (p : ClassPage) (h : ∀ t ∈ p.raws, '<' ∉ t) :
    headedOn p.html = (p.fields.kids ++ p.methods.kids).flatMap fun k => (k.heading.map blockHeading).toList := by
  unfold ClassPage.html
  rw [headedOn_render (clean_page p h)]
  have : Heads (classFrags p) ((((([] ++ []) ++ []) ++ []) ++ []) ++
      p.fields.kids.flatMap (fun k => (k.heading.map blockHeading).toList) ++
      p.methods.kids.flatMap (fun k => (k.heading.map blockHeading).toList) ++ []) := by
    unfold classFrags
    refine (((((((Heads.plain (by noh3)).append (.plain ?_)).append (.plain (noH3_anno ..))).append
      (.plain (noH3_anno ..))).append (.plain (noH3_pool _))).append (heads_members ..)).append
      (heads_members ..)).append (.plain (by noh3))
    exact NoH3.div ((noH3_heading ..).append (noH3_leftTable ..))
  obtain ⟨t, e⟩ := this.run [] []
  rw [e]
  simp [List.flatMap_append]

/-! ### What the page should show -/

/-- The member is a field of this name and type. -/
structure IsField (pool : Pool) (lim : Nat) (m : Member) (n : Str) (t : JType) : Prop where
  kind : m.isMethod = false
  name : m.getName pool lim = .ok (.str n)
  desc : m.getDescriptor pool lim = .ok (.str t.desc)
  types : t.Names JavaClassName

/-- The member is a method of this name and these types. -/
structure IsMethod (pool : Pool) (lim : Nat) (m : Member) (n : Str) (args : List JType) (ret : Option JType) :
    Prop where
  kind : m.isMethod = true
  name : m.getName pool lim = .ok (.str n)
  desc : m.getDescriptor pool lim = .ok (.str (methodDesc args ret))
  plain : JavaMemberName n
  types : JavaTypes args ret

/-- Fields of two classes are versions of each other: the name is the same. -/
def SameField (lim : Nat) (lp rp : Pool) (a b : Member) : Prop :=
  ∃ n t u, IsField lp lim a n t ∧ IsField rp lim b n u

/-- Methods of two classes are versions of each other: names and arguments are the same, both or
none are bridges, and for bridges the result types are the same. -/
def SameMethod (lim : Nat) (lp rp : Pool) (a b : Member) : Prop :=
  ∃ n args ret ret', IsMethod lp lim a n args ret ∧ IsMethod rp lim b n args ret' ∧
    a.isBridge = b.isBridge ∧ (a.isBridge = true → ret = ret')

/-- The members of a class that a compiler made: every field and method has a name and a type, and
they are different ones. -/
structure JavaMembers (lim : Nat) (c : ClassInfo) : Prop where
  fields : ∀ m ∈ c.fields, ∃ n t, IsField c.pool lim m n t
  methods : ∀ m ∈ c.methods, ∃ n args ret, IsMethod c.pool lim m n args ret
  fieldsDiffer : c.fields.Pairwise fun a b => ¬ SameField lim c.pool c.pool a b
  methodsDiffer : c.methods.Pairwise fun a b => ¬ SameMethod lim c.pool c.pool a b

/-- What happened to a member. -/
inductive Fate where
  | added | removed | kept
  deriving DecidableEq, Repr

/-- A member of the right class only, of the left one only, of both. -/
def Fate.Of (same : Member → Member → Prop) (ls rs : List Member) : Fate → Member → Prop
  | .added, m => m ∈ rs ∧ ∀ l ∈ ls, ¬ same l m
  | .removed, m => m ∈ ls ∧ ∀ r ∈ rs, ¬ same m r
  | .kept, m => m ∈ ls ∧ ∃ r ∈ rs, same m r

/-- The word for it in the class of a change. -/
def Fate.word : Fate → Str
  | .added => "Added".toList
  | .removed => "Removed".toList
  | .kept => "Change".toList

/-- Every member for which `want` holds is shown exactly once, with its word and its title, and
nothing else is. -/
def ShowsFates (want : Fate → Member → Prop) (title : Fate → Member → Str → Prop)
    (shown : List (Str × Str)) : Prop :=
  ∃ ms : List (Fate × Member × Str), (ms.map fun x => (x.1, x.2.1)).Nodup ∧
    (∀ f m, (f, m) ∈ ms.map (fun x => (x.1, x.2.1)) ↔ want f m) ∧
    (∀ x ∈ ms, title x.1 x.2.1 x.2.2) ∧ shown = ms.map fun x => (x.1.word, x.2.2)

/-- The pool of the class that a member is from. -/
def Fate.pool (lp rp : Pool) : Fate → Pool
  | .added => rp
  | _ => lp

/-- The title of a field: its name. -/
def FieldTitle (lim : Nat) (lp rp : Pool) (f : Fate) (m : Member) (s : Str) : Prop :=
  ∃ t, IsField (f.pool lp rp) lim m s t

/-- The title of a method: name, types of the arguments and of the result as in Java. -/
def MethodTitle (lim : Nat) (lp rp : Pool) (f : Fate) (m : Member) (s : Str) : Prop :=
  ∃ n args ret, IsMethod (f.pool lp rp) lim m n args ret ∧
    s = n ++ "(".toList ++ joinWith ", ".toList (args.map JType.java) ++ "):".toList ++ retJava ret

/-! ### The members of a page -/

def MemberDelta.fate : MemberDelta → Fate × Member
  | .added r => (.added, r)
  | .removed l => (.removed, l)
  | .changed l _ => (.kept, l)

theorem nodup_key {α β : Type} {f : α → β} {l : List α} (h : (l.map f).Nodup) :
    ∀ x ∈ l, ∀ y ∈ l, f x = f y → x = y := by
  induction l with
  | nil => intro x hx; simp at hx
  | cons a l ih =>
    rw [List.map_cons, List.nodup_cons, List.mem_map] at h
    intro x hx y hy e
    rcases List.mem_cons.1 hx with h1 | h1 <;> rcases List.mem_cons.1 hy with h2 | h2
    · rw [h1, h2]
    · exact absurd ⟨y, h2, by rw [← e, h1]⟩ h.1
    · exact absurd ⟨x, h1, by rw [e, h2]⟩ h.1
    · exact ih h.2 x h1 y h2 e

section
variable {lident rident : Member → Res Str} {ls rs : List Member} {same : Member → Member → Prop}

/-- Members with different identifiers. -/
theorem deltas_fates (lid rid : Member → Str) (hl : ∀ m ∈ ls, lident m = .ok (lid m))
    (hr : ∀ m ∈ rs, rident m = .ok (rid m)) (hnl : (ls.map lid).Nodup) (hnr : (rs.map rid).Nodup)
    (hs : ∀ l ∈ ls, ∀ r ∈ rs, same l r ↔ lid l = rid r) :
    ∃ ds, sortedDeltas lident rident ls rs = .ok ds ∧ (ds.map MemberDelta.fate).Nodup ∧
      (∀ f m, (f, m) ∈ ds.map MemberDelta.fate ↔ Fate.Of same ls rs f m) ∧
      ∀ a b, .changed a b ∈ ds → a ∈ ls ∧ b ∈ rs ∧ same a b := by
  obtain ⟨ds, hds, ha, hb, hc, hn⟩ := C41_members lident rident lid rid ls rs hl hr hnl hnr
  have hinj := nodup_key hnr
  refine ⟨ds, hds, ?_, ?_, fun a b h => ?_⟩
  · rw [List.Nodup, List.pairwise_map]
    refine List.Pairwise.imp_of_mem ?_ hn
    intro a b h1 h2 hne e
    cases a <;> cases b <;> simp only [MemberDelta.fate, Prod.mk.injEq, reduceCtorEq, false_and, true_and] at e
    · exact hne (by rw [e])
    · exact hne (by rw [e])
    · rename_i l r l' r'
      subst e
      obtain ⟨_, h3, h4⟩ := (hc _ _).1 h1
      obtain ⟨_, h5, h6⟩ := (hc _ _).1 h2
      exact hne (by rw [hinj r h3 r' h5 (h4 ▸ h6 ▸ rfl)])
  · intro f m
    rw [List.mem_map]
    constructor
    · rintro ⟨d, hd, e⟩
      cases d with
      | added r =>
        simp only [MemberDelta.fate, Prod.mk.injEq] at e
        obtain ⟨rfl, rfl⟩ := e
        obtain ⟨h1, h2⟩ := (ha _).1 hd
        exact ⟨h1, fun l h3 h4 => h2 l h3 ((hs l h3 _ h1).1 h4)⟩
      | removed l =>
        simp only [MemberDelta.fate, Prod.mk.injEq] at e
        obtain ⟨rfl, rfl⟩ := e
        obtain ⟨h1, h2⟩ := (hb _).1 hd
        exact ⟨h1, fun r h3 h4 => h2 r h3 ((hs _ h1 r h3).1 h4).symm⟩
      | changed l r =>
        simp only [MemberDelta.fate, Prod.mk.injEq] at e
        obtain ⟨rfl, rfl⟩ := e
        obtain ⟨h1, h2, h3⟩ := (hc _ _).1 hd
        exact ⟨h1, r, h2, (hs _ h1 r h2).2 h3⟩
    · intro h
      cases f with
      | added => exact ⟨.added m, (ha m).2 ⟨h.1, fun l h3 h4 => h.2 l h3 ((hs l h3 _ h.1).2 h4)⟩, rfl⟩
      | removed => exact ⟨.removed m, (hb m).2 ⟨h.1, fun r h3 h4 => h.2 r h3 ((hs _ h.1 r h3).2 h4.symm)⟩, rfl⟩
      | kept =>
        obtain ⟨h1, r, h2, h3⟩ := h
        exact ⟨.changed m r, (hc m r).2 ⟨h1, h2, (hs _ h1 r h2).1 h3⟩, rfl⟩
  · obtain ⟨h1, h2, h3⟩ := (hc a b).1 h
    exact ⟨h1, h2, (hs _ h1 _ h2).2 h3⟩
end

/-! ### Identifiers -/

/-- The identifier of a member that has one. -/
def identOf (p : Pool) (lim : Nat) (m : Member) : Str :=
  match m.identifier p lim with
  | .ok i => i
  | .error _ => []

theorem identOf_ok {p : Pool} {lim : Nat} {m : Member} {i : Str} (h : m.identifier p lim = .ok i) :
    m.identifier p lim = .ok (identOf p lim m) := by
  unfold identOf; rw [h]

theorem ident_field {lp rp : Pool} {lim : Nat} {a b : Member} {n n' : Str} {t t' : JType}
    (ha : IsField lp lim a n t) (hb : IsField rp lim b n' t') :
    (SameField lim lp rp a b ↔ identOf lp lim a = identOf rp lim b) := by
  obtain ⟨i, i', e, e', h⟩ := C24_field_identifiers a b lp rp lim n n' ha.kind hb.kind ha.name hb.name
  unfold identOf
  rw [e, e']
  simp only
  rw [h]
  constructor
  · rintro ⟨m, u, u', h1, h2⟩
    have e1 := ha.name.symm.trans h1.name
    have e2 := hb.name.symm.trans h2.name
    simp only [Except.ok.injEq, PVal.str.injEq] at e1 e2
    rw [e1, e2]
  · rintro rfl
    exact ⟨n, t, t', ha, hb⟩

theorem ident_method {lp rp : Pool} {lim : Nat} {a b : Member} {n n' : Str} {args args' : List JType}
    {ret ret' : Option JType} (ha : IsMethod lp lim a n args ret) (hb : IsMethod rp lim b n' args' ret') :
    (SameMethod lim lp rp a b ↔ identOf lp lim a = identOf rp lim b) := by
  unfold identOf
  constructor
  · rintro ⟨m, as, r, r', h1, h2, h3, h4⟩
    obtain ⟨i, i', e, e', h⟩ := C24_method_identifiers a b lp rp lim m m as as r r' h1.kind h2.kind h1.name
      h2.name h1.desc h2.desc h1.plain h2.plain h1.types h2.types
    rw [e, e']
    exact h.2 ⟨rfl, rfl, h3, h4⟩
  · intro hi
    obtain ⟨i, i', e, e', h⟩ := C24_method_identifiers a b lp rp lim n n' args args' ret ret' ha.kind hb.kind
      ha.name hb.name ha.desc hb.desc ha.plain hb.plain ha.types hb.types
    rw [e, e'] at hi
    obtain ⟨rfl, rfl, h3, h4⟩ := h.1 hi
    exact ⟨n, args, ret, ret', ha, hb, h3, h4⟩

theorem fields_fates {lim : Nat} {l r : ClassInfo} (hl : JavaMembers lim l) (hr : JavaMembers lim r) :
    ∃ ds, sortedDeltas (fun m => m.identifier l.pool lim) (fun m => m.identifier r.pool lim) l.fields r.fields = .ok ds ∧
      (ds.map MemberDelta.fate).Nodup ∧
      (∀ f m, (f, m) ∈ ds.map MemberDelta.fate ↔ Fate.Of (SameField lim l.pool r.pool) l.fields r.fields f m) ∧
      ∀ a b, .changed a b ∈ ds → a ∈ l.fields ∧ b ∈ r.fields ∧ SameField lim l.pool r.pool a b := by
  have hi : ∀ c : ClassInfo, JavaMembers lim c → (∀ m ∈ c.fields, m.identifier c.pool lim = .ok (identOf c.pool lim m)) ∧
      (c.fields.map (identOf c.pool lim)).Nodup := by
    intro c hc
    constructor
    · intro m hm
      obtain ⟨n, t, h⟩ := hc.fields m hm
      obtain ⟨i, _, e, _⟩ := C24_field_identifiers m m c.pool c.pool lim n n h.kind h.kind h.name h.name
      exact identOf_ok e
    · rw [List.Nodup, List.pairwise_map]
      refine List.Pairwise.imp_of_mem ?_ hc.fieldsDiffer
      intro a b ha hb hd e
      obtain ⟨n, t, h⟩ := hc.fields a ha
      obtain ⟨n', t', h'⟩ := hc.fields b hb
      exact hd ((ident_field h h').2 e)
  exact deltas_fates _ _ (hi l hl).1 (hi r hr).1 (hi l hl).2 (hi r hr).2 fun a ha b hb => by
    obtain ⟨n, t, h⟩ := hl.fields a ha
    obtain ⟨n', t', h'⟩ := hr.fields b hb
    exact ident_field h h'

theorem methods_fates {lim : Nat} {l r : ClassInfo} (hl : JavaMembers lim l) (hr : JavaMembers lim r) :
    ∃ ds, sortedDeltas (fun m => m.identifier l.pool lim) (fun m => m.identifier r.pool lim) l.methods r.methods = .ok ds ∧
      (ds.map MemberDelta.fate).Nodup ∧
      (∀ f m, (f, m) ∈ ds.map MemberDelta.fate ↔ Fate.Of (SameMethod lim l.pool r.pool) l.methods r.methods f m) ∧
      ∀ a b, .changed a b ∈ ds → a ∈ l.methods ∧ b ∈ r.methods ∧ SameMethod lim l.pool r.pool a b := by
  have hi : ∀ c : ClassInfo, JavaMembers lim c → (∀ m ∈ c.methods, m.identifier c.pool lim = .ok (identOf c.pool lim m)) ∧
      (c.methods.map (identOf c.pool lim)).Nodup := by
    intro c hc
    constructor
    · intro m hm
      obtain ⟨n, as, t, h⟩ := hc.methods m hm
      obtain ⟨i, _, e, _⟩ := C24_method_identifiers m m c.pool c.pool lim n n as as t t h.kind h.kind h.name h.name
        h.desc h.desc h.plain h.plain h.types h.types
      exact identOf_ok e
    · rw [List.Nodup, List.pairwise_map]
      refine List.Pairwise.imp_of_mem ?_ hc.methodsDiffer
      intro a b ha hb hd e
      obtain ⟨n, as, t, h⟩ := hc.methods a ha
      obtain ⟨n', as', t', h'⟩ := hc.methods b hb
      exact hd ((ident_method h h').2 e)
  exact deltas_fates _ _ (hi l hl).1 (hi r hr).1 (hi l hl).2 (hi r hr).2 fun a ha b hb => by
    obtain ⟨n, as, t, h⟩ := hl.methods a ha
    obtain ⟨n', as', t', h'⟩ := hr.methods b hb
    exact ident_method h h'

/-! ### The views of the members -/

/-- Class of the change and heading. -/
def MemberView.shown (k : MemberView) : Option (String × Str) := k.heading.map fun h => (h.1, h.2.2)

theorem viewsOf_shown {view : MemberDelta → Change Opts → Res MemberView} {g : MemberDelta → Option (String × Str)} :
    ∀ {ds : List MemberDelta} {cs : List (Change Opts)} {vs : List MemberView}, ds.length = cs.length →
      (∀ d ∈ ds, ∀ c v, view d c = .ok v → v.shown = g d) → viewsOf view ds cs = .ok vs →
      vs.map MemberView.shown = ds.map g := by
  intro ds
  induction ds with
  | nil => intro cs vs hl _ h; cases cs <;> simp_all [viewsOf]
  | cons d ds ih =>
    intro cs vs hl hg h
    cases cs with
    | nil => simp at hl
    | cons c cs =>
      rw [viewsOf] at h
      split at h
      · simp at h
      · rename_i v hv
        split at h
        · simp at h
        · rename_i vs' hvs
          simp only [Except.ok.injEq] at h
          subst h
          rw [List.map_cons, List.map_cons, hg d (by simp) c v hv,
            ih (by simpa using hl) (fun d' h' => hg d' (by simp [h'])) hvs]

theorem classWords_block (type : String) (h : type ∈ ["FieldChange", "MethodChange", "MethodAdded", "MethodRemoved"])
    (v : Verdict) : ∃ ws, classWords ("div class=\"" ++ divClasses type v ++ "\"").toList =
      "Change".toList :: type.toList :: ws := by
  have : ∀ t ∈ ["FieldChange", "MethodChange", "MethodAdded", "MethodRemoved"], ∀ a b,
      (classWords ("div class=\"" ++ divClasses t ⟨a, b⟩ ++ "\"").toList).take 2 = ["Change".toList, t.toList] := by
    decide +kernel
  have := this type h v.changed v.ignored
  rcases hw : classWords ("div class=\"" ++ divClasses type v ++ "\"").toList with _ | ⟨x, _ | ⟨y, ws⟩⟩ <;>
    rw [hw] at this <;> simp at this
  exact ⟨ws, by rw [this.1, this.2]; rfl⟩

/-- The members of a kind among what the views show. -/
def pickMembers (what : Str) (s : Option (String × Str)) : Option (Str × Str) :=
  match s with
  | some (t, h) => if what.isPrefixOf t.toList then some (t.toList.drop what.length, h) else none
  | none => none

theorem shownMembers_page (what : Str) (p : ClassPage) (h : ∀ t ∈ p.raws, '<' ∉ t) :
    shownMembers what p.html = ((p.fields.kids.map MemberView.shown).filterMap (pickMembers what)) ++
      ((p.methods.kids.map MemberView.shown).filterMap (pickMembers what)) := by
  unfold shownMembers
  rw [headedOn_page p h, List.filterMap_flatMap, List.flatMap_append]
  have : ∀ ks : List MemberView, (ks.flatMap fun k => List.filterMap (fun x => match classWords x.1 with
      | _ :: k :: _ => if what.isPrefixOf k then some (k.drop what.length, htmlText x.2) else none
      | _ => none) (k.heading.map blockHeading).toList) = (ks.map MemberView.shown).filterMap (pickMembers what) := by
    intro ks
    induction ks with
    | nil => rfl
    | cons k ks ih =>
      rw [List.flatMap_cons, ih, List.map_cons, List.filterMap_cons]
      unfold MemberView.shown
      cases hk : k.heading with
      | none => rfl
      | some x =>
        obtain ⟨type, v, s⟩ := x
        have ht : type ∈ ["FieldChange", "MethodChange", "MethodAdded", "MethodRemoved"] := by
          cases k <;> simp_all [MemberView.heading]
        obtain ⟨ws, e⟩ := classWords_block type ht v
        simp only [Option.map_some, Option.toList_some, List.filterMap_cons, List.filterMap_nil, blockHeading, e,
          pickMembers, C116_shows]
        split <;> simp_all
  rw [this, this]

/-! ### The page of two classes -/

theorem checkAll_step {O : Type} {c : Change O} {cs cs' : List (Change O)} {b b' : Bool}
    (h : Change.checkAll (c :: cs) b = .ok (cs', b')) :
    ∃ c' cs'' b'', cs' = c' :: cs'' ∧ c.check = .ok c' ∧ Change.checkAll cs b'' = .ok (cs'', b') := by
  rw [Change.checkAll] at h
  split at h
  · simp at h
  · rename_i x hx
    split at h
    · simp at h
    · rename_i xs c1 hxs
      simp only [Except.ok.injEq, Prod.mk.injEq] at h
      obtain ⟨rfl, rfl⟩ := h
      exact ⟨x, xs, _, rfl, hx, hxs⟩

theorem checkAll_done {O : Type} {cs' : List (Change O)} {b b' : Bool}
    (h : Change.checkAll ([] : List (Change O)) b = .ok (cs', b')) : cs' = [] ∧ b' = b := by
  simp only [Change.checkAll, Except.ok.injEq, Prod.mk.injEq] at h
  exact ⟨h.1.symm, h.2.symm⟩

/-- What a page was made from. -/
structure MadeFrom (E : ClassPageEnv) (o : Opts) (l r : ClassInfo) (p : ClassPage) : Prop where
  info : ∃ kids, infoSubs E l r kids = .ok p.info
  annos : ∃ c, annoViewOf E o l.pool r.pool l.attribs r.attribs "RuntimeVisibleAnnotations" c = .ok p.annos
  invisible : ∃ c, annoViewOf E o l.pool r.pool l.attribs r.attribs "RuntimeInvisibleAnnotations" c = .ok p.invisible
  pool : ∃ c, poolViewOf E o l.pool r.pool c = .ok p.pool
  fields : ∃ c, (membersChange E.texts E.print.lim "ClassFieldsChange" "Fields" "Field"
      (fieldChildren E.texts E.print.lim E.print.depth l.pool r.pool) l.pool r.pool l.fields r.fields).check = .ok c ∧
    membersViewOf E o (fieldView E o l.pool r.pool) l.pool r.pool l.fields r.fields c = .ok p.fields
  methods : ∃ c, (membersChange E.texts E.print.lim "ClassMethodsChange" "Methods" "Method"
      (methodChildren E.texts E.print.lim E.print.depth l.pool r.pool) l.pool r.pool l.methods r.methods).check = .ok c ∧
    membersViewOf E o (methodView E o l.pool r.pool) l.pool r.pool l.methods r.methods c = .ok p.methods

theorem except_bind_ok {ε α β : Type} {x : Except ε α} {f : α → Except ε β} {b : β} (h : x >>= f = .ok b) :
    ∃ a, x = .ok a ∧ f a = .ok b := by
  cases x with
  | error e => simp [bind, Except.bind] at h
  | ok a => exact ⟨a, rfl, h⟩

theorem madeFrom {E : ClassPageEnv} {o : Opts} {l r : ClassInfo} {p : ClassPage}
    (h : classReportPage E o l r = .ok p) : MadeFrom E o l r p := by
  unfold classReportPage at h
  split at h
  · simp at h
  · rename_i c hc
    unfold javaClassChange at hc
    rw [Change.check] at hc
    split at hc
    · simp at hc
    · rename_i kids b hk
      simp only [Except.ok.injEq] at hc
      subst hc
      rw [Change.collect] at h
      unfold classChildren at hk
      obtain ⟨c1, k1, _, rfl, h1, hk⟩ := checkAll_step hk
      obtain ⟨c2, k2, _, rfl, h2, hk⟩ := checkAll_step hk
      obtain ⟨c3, k3, _, rfl, h3, hk⟩ := checkAll_step hk
      obtain ⟨c4, k4, _, rfl, h4, hk⟩ := checkAll_step hk
      obtain ⟨c5, k5, _, rfl, h5, hk⟩ := checkAll_step hk
      obtain ⟨c6, k6, _, rfl, h6, hk⟩ := checkAll_step hk
      obtain ⟨rfl, _⟩ := checkAll_done hk
      simp only at h
      obtain ⟨_, _, h⟩ := except_bind_ok h
      obtain ⟨_, e1, h⟩ := except_bind_ok h
      obtain ⟨_, e2, h⟩ := except_bind_ok h
      obtain ⟨_, e3, h⟩ := except_bind_ok h
      obtain ⟨_, e4, h⟩ := except_bind_ok h
      obtain ⟨_, e5, h⟩ := except_bind_ok h
      obtain ⟨_, e6, h⟩ := except_bind_ok h
      simp only [Except.ok.injEq] at h
      subst h
      exact ⟨⟨_, e1⟩, ⟨_, e2⟩, ⟨_, e3⟩, ⟨_, e4⟩, ⟨_, h5, e5⟩, ⟨_, h6, e6⟩⟩

/-- The views of the members stand beside the deltas. -/
theorem members_made {E : ClassPageEnv} {o : Opts} {view : MemberDelta → Change Opts → Res MemberView}
    {name label what : String} {children : Member → Member → List (Change Opts)} {lp rp : Pool}
    {ls rs : List Member} {c : Change Opts} {v : MembersView} {ds : List MemberDelta}
    (hd : sortedDeltas (fun m => m.identifier lp E.print.lim) (fun m => m.identifier rp E.print.lim) ls rs = .ok ds)
    (hc : (membersChange E.texts E.print.lim name label what children lp rp ls rs).check = .ok c)
    (hv : membersViewOf E o view lp rp ls rs c = .ok v) :
    ds.length = c.collect.length ∧ viewsOf view ds c.collect = .ok v.kids := by
  unfold membersChange at hc
  simp only [hd] at hc
  rw [Change.check] at hc
  split at hc
  · simp at hc
  · rename_i kids b hk
    simp only [Except.ok.injEq] at hc
    subst hc
    constructor
    · rw [Change.collect, (Change.checkAll_ok _ _ _ _ hk).2.2.2, List.length_map]
    · unfold membersViewOf at hv
      simp only [hd] at hv
      split at hv
      · simp at hv
      · rename_i vs e
        simp only [Except.ok.injEq] at hv
        subst hv
        exact e

/-- The heading that the page should have for a field. -/
def fieldShown (lim : Nat) (lp : Pool) : MemberDelta → Option (String × Str)
  | .changed l _ => some ("FieldChange", match l.name lp lim with | .ok n => n | .error _ => [])
  | _ => none

def headText (E : ClassPageEnv) (m : Member) (p : Pool) : Str :=
  match methodHead E m p with
  | .ok n => n
  | .error _ => []

def methodShown (E : ClassPageEnv) (lp rp : Pool) (d : MemberDelta) : String × Str :=
  match d with
  | .added r => ("MethodAdded", headText E r rp)
  | .removed l => ("MethodRemoved", headText E l lp)
  | .changed l _ => ("MethodChange", headText E l lp)

theorem fieldView_shown {E : ClassPageEnv} {o : Opts} {lp rp : Pool} (d : MemberDelta) (c : Change Opts)
    (v : MemberView) (h : fieldView E o lp rp d c = .ok v) : v.shown = fieldShown E.print.lim lp d := by
  cases d with
  | added r => simp only [fieldView, Except.ok.injEq] at h; subst h; rfl
  | removed r => simp only [fieldView, Except.ok.injEq] at h; subst h; rfl
  | changed l r =>
    unfold fieldView at h
    obtain ⟨n, e1, h⟩ := except_bind_ok h
    obtain ⟨_, _, h⟩ := except_bind_ok h
    obtain ⟨_, _, h⟩ := except_bind_ok h
    obtain ⟨_, _, h⟩ := except_bind_ok h
    obtain ⟨_, _, h⟩ := except_bind_ok h
    obtain ⟨_, _, h⟩ := except_bind_ok h
    simp only [Except.ok.injEq] at h
    subst h
    simp only [fieldShown, e1]
    rfl

theorem methodView_shown {E : ClassPageEnv} {o : Opts} {lp rp : Pool} (d : MemberDelta) (c : Change Opts)
    (v : MemberView) (h : methodView E o lp rp d c = .ok v) : v.shown = some (methodShown E lp rp d) := by
  cases d with
  | added r =>
    unfold methodView at h
    obtain ⟨n, e1, h⟩ := except_bind_ok h
    obtain ⟨_, _, h⟩ := except_bind_ok h
    simp only [Except.ok.injEq] at h
    subst h
    simp only [methodShown, headText, e1]
    rfl
  | removed r =>
    unfold methodView at h
    obtain ⟨n, e1, h⟩ := except_bind_ok h
    obtain ⟨_, _, h⟩ := except_bind_ok h
    simp only [Except.ok.injEq] at h
    subst h
    simp only [methodShown, headText, e1]
    rfl
  | changed l r =>
    unfold methodView at h
    obtain ⟨n, e1, h⟩ := except_bind_ok h
    obtain ⟨_, _, h⟩ := except_bind_ok h
    obtain ⟨_, _, h⟩ := except_bind_ok h
    obtain ⟨_, _, h⟩ := except_bind_ok h
    obtain ⟨_, _, h⟩ := except_bind_ok h
    obtain ⟨_, _, h⟩ := except_bind_ok h
    obtain ⟨_, _, h⟩ := except_bind_ok h
    obtain ⟨_, _, h⟩ := except_bind_ok h
    obtain ⟨_, _, h⟩ := except_bind_ok h
    obtain ⟨_, _, h⟩ := except_bind_ok h
    simp only [Except.ok.injEq] at h
    subst h
    simp only [methodShown, headText, e1]
    rfl

/-- The title of a method. -/
theorem methodHead_java {E : ClassPageEnv} {p : Pool} {m : Member} {n : Str} {args : List JType}
    {ret : Option JType} (h : IsMethod p E.print.lim m n args ret) : headText E m p =
      n ++ "(".toList ++ joinWith ", ".toList (args.map JType.java) ++ "):".toList ++ retJava ret := by
  obtain ⟨_, _, h3, h4⟩ := C23_method_accessors m p E.print.lim args ret h.kind h.desc
    (fun t ht => Names.imp (fun n hn => ⟨JavaClassName.not_mem hn (by decide) (by decide),
      JavaClassName.not_mem hn (by decide) (by decide)⟩) (h.types.1 t ht))
    (fun t ht => Names.imp (fun n hn => JavaClassName.not_mem hn (by decide) (by decide)) (h.types.2 t ht))
  unfold headText methodHead
  rw [h.name, h3, h4]
  rfl

theorem fieldTitle_java {lp : Pool} {lim : Nat} {m : Member} {n : Str} {t : JType} (h : IsField lp lim m n t) :
    m.name lp lim = .ok n := by
  unfold Member.name
  rw [h.name]
  rfl

/-- A kept field and its name. -/
def keptTitle (lim : Nat) (lp : Pool) : MemberDelta → Option (Fate × Member × Str)
  | .changed l _ => some (.kept, l, match l.name lp lim with | .ok n => n | .error _ => [])
  | _ => none

/-- The members that the page has headings for. -/
theorem shown_members {E : ClassPageEnv} {o : Opts} {l r : ClassInfo} {p : ClassPage}
    (h : classReportPage E o l r = .ok p) (hl : JavaMembers E.print.lim l) (hr : JavaMembers E.print.lim r)
    (hp : ∀ t ∈ p.raws, '<' ∉ t) :
    ShowsFates (fun f m => f = .kept ∧ Fate.Of (SameField E.print.lim l.pool r.pool) l.fields r.fields f m)
      (FieldTitle E.print.lim l.pool r.pool) (shownMembers "Field".toList p.html) ∧
    ShowsFates (Fate.Of (SameMethod E.print.lim l.pool r.pool) l.methods r.methods)
      (MethodTitle E.print.lim l.pool r.pool) (shownMembers "Method".toList p.html) := by
  have hm := madeFrom h
  obtain ⟨fds, hfd, hfn, hff, _⟩ := fields_fates hl hr
  obtain ⟨mds, hmd, hmn, hmf, _⟩ := methods_fates hl hr
  obtain ⟨fc, hfc, hfv⟩ := hm.fields
  obtain ⟨mc, hmc, hmv⟩ := hm.methods
  obtain ⟨f1, f2⟩ := members_made hfd hfc hfv
  obtain ⟨m1, m2⟩ := members_made hmd hmc hmv
  have sf := viewsOf_shown f1 (fun d _ c v => fieldView_shown d c v) f2
  have sm := viewsOf_shown m1 (fun d _ c v => methodView_shown d c v) m2
  rw [shownMembers_page _ p hp, shownMembers_page _ p hp, sf, sm]
  have ff : ∀ ds : List MemberDelta, (ds.map (fieldShown E.print.lim l.pool)).filterMap (pickMembers "Method".toList) = [] := by
    intro ds
    rw [List.filterMap_map, List.filterMap_eq_nil_iff]
    intro d _
    cases d <;> rfl
  have mm : ∀ ds : List MemberDelta, (ds.map fun d => some (methodShown E l.pool r.pool d)).filterMap (pickMembers "Field".toList) = [] := by
    intro ds
    rw [List.filterMap_map, List.filterMap_eq_nil_iff]
    intro d _
    cases d <;> rfl
  rw [ff, mm, List.append_nil, List.nil_append]
  constructor
  · have hk : ∀ ds : List MemberDelta, (ds.map (fieldShown E.print.lim l.pool)).filterMap (pickMembers "Field".toList) =
        (ds.filterMap (keptTitle E.print.lim l.pool)).map fun x => (x.1.word, x.2.2) := by
      intro ds
      rw [List.filterMap_map, List.map_filterMap]
      refine congrArg (List.filterMap · ds) (funext fun d => ?_)
      cases d <;> rfl
    have hk2 : (fds.filterMap (keptTitle E.print.lim l.pool)).map (fun x => (x.1, x.2.1)) =
        (fds.map MemberDelta.fate).filter fun x => decide (x.1 = .kept) := by
      rw [List.map_filterMap]
      generalize fds = ds
      induction ds with
      | nil => rfl
      | cons d ds ih =>
        rw [List.filterMap_cons, List.map_cons, List.filter_cons, ih]
        cases d <;> rfl
    refine ⟨fds.filterMap (keptTitle E.print.lim l.pool), ?_, ?_, ?_, hk fds⟩
    · rw [hk2]; exact hfn.filter _
    · intro f m
      rw [hk2, List.mem_filter, hff, decide_eq_true_eq]
      exact And.comm
    · intro x hx
      obtain ⟨d, hd, e⟩ := List.mem_filterMap.1 hx
      have := (hff d.fate.1 d.fate.2).1 (List.mem_map.2 ⟨d, hd, rfl⟩)
      cases d with
      | added a => simp [keptTitle] at e
      | removed a => simp [keptTitle] at e
      | changed a b =>
        simp only [keptTitle, Option.some.injEq] at e
        subst e
        obtain ⟨n, t, hj⟩ := hl.fields a this.1
        rw [fieldTitle_java hj]
        exact ⟨t, hj⟩
  · refine ⟨mds.map fun d => (d.fate.1, d.fate.2, (methodShown E l.pool r.pool d).2), ?_, ?_, ?_, ?_⟩
    · rw [List.map_map]; exact hmn
    · intro f m; rw [List.map_map]; exact hmf f m
    · intro x hx
      obtain ⟨d, hd, rfl⟩ := List.mem_map.1 hx
      have := (hmf d.fate.1 d.fate.2).1 (List.mem_map.2 ⟨d, hd, rfl⟩)
      cases d with
      | added a =>
        obtain ⟨n, args, ret, hj⟩ := hr.methods a this.1
        exact ⟨n, args, ret, hj, methodHead_java hj⟩
      | removed a =>
        obtain ⟨n, args, ret, hj⟩ := hl.methods a this.1
        exact ⟨n, args, ret, hj, methodHead_java hj⟩
      | changed a b =>
        obtain ⟨n, args, ret, hj⟩ := hl.methods a this.1
        exact ⟨n, args, ret, hj, methodHead_java hj⟩
    · rw [List.filterMap_map, List.map_map, ← List.filterMap_eq_map]
      refine congrArg (List.filterMap · mds) (funext fun d => ?_)
      cases d <;> rfl

end Javatools
