import Verif.Proofs.Dir
/-
C59: comparison of directories.
-/
namespace Javatools

/-! ### The claim -/

/-- What a comparison should say about a path, given which files count as the same. -/
def Reporting (eq : Bytes → Int → Bytes → Int → Prop) (l r : Forest) : Event → List Str → Prop
  | .left, p => (∃ b t, FileAt l p b t) ∧ ¬ ∃ b t, FileAt r p b t
  | .right, p => (∃ b t, FileAt r p b t) ∧ ¬ ∃ b t, FileAt l p b t
  | .same, p => ∃ b t c u, FileAt l p b t ∧ FileAt r p c u ∧ eq b t c u
  | .diff, p => ∃ b t c u, FileAt l p b t ∧ FileAt r p c u ∧ ¬ eq b t c u

/-- Files are the same if their contents are. -/
def SameContent (b : Bytes) (_ : Int) (c : Bytes) (_ : Int) : Prop := b = c

/-- `s` is a relative path of the file: the names with slashes in between, perhaps after `./`. -/
def Denotes (s : Str) (p : List Str) : Prop := s = slashed p ∨ s = "./".toList ++ slashed p

/-- These are the right events, each once, for the paths `ps`. -/
structure Reports (eq : Bytes → Int → Bytes → Int → Prop) (l r : Forest) (evs : List (Event × Str))
    (ps : List (Event × List Str)) : Prop where
  text : evs.length = ps.length ∧ ∀ x ∈ evs.zip ps, x.1.1 = x.2.1 ∧ Denotes x.1.2 x.2.2
  once : (ps.map Prod.snd).Nodup
  all : ∀ ev p, (ev, p) ∈ ps ↔ Reporting eq l r ev p

/-- C59 as stated. -/
def C59_full : Prop :=
  ∀ l r : Forest, l.Ok → r.Ok → ∃ evs ps, compareDirs l r = (evs, none) ∧
    Reports SameContent l r evs ps

/-! ### The events as paths -/

/-- What `filecmp.cmp` says. -/
def Shallow (b : Bytes) (t : Int) (c : Bytes) (u : Int) : Prop :=
  b = c ∨ (b.length = c.length ∧ t = u)

theorem filesEqual_iff (b : Bytes) (t : Int) (c : Bytes) (u : Int) :
    filesEqual b t c u = true ↔ Shallow b t c u := by
  unfold filesEqual Shallow
  split
  · rename_i h; simp [h]
  · rename_i h
    split
    · rename_i h2
      simp only [Bool.false_eq_true, false_iff, not_or]
      exact ⟨fun e => h2 (by rw [e]), h⟩
    · rw [decide_eq_true_eq]
      exact ⟨.inl, fun h' => h'.resolve_right h⟩

/-- The paths for one name on one side only. -/
def onlyPaths (side : Forest) (f : Str) : List (List Str) :=
  match side.find f with
  | some (.dir s) => s.paths.map fun p => f :: p
  | _ => [[f]]

def levelPaths (l r : Forest) : List (Event × List Str) :=
  ((sortNames (onlyNames l r)).flatMap (onlyPaths l)).map (fun p => (.left, p)) ++
  ((sortNames (onlyNames r l)).flatMap (onlyPaths r)).map (fun p => (.right, p)) ++
  (sortNames (commonFiles false l r)).map (fun f => (.diff, [f])) ++
  (sortNames (commonFiles true l r)).map fun f => (.same, [f])

def under (n : Str) (x : List (Event × List Str) × Option PyErr) :
    List (Event × List Str) × Option PyErr :=
  (x.1.map fun e => (e.1, n :: e.2), x.2)

def subEventPaths (r : Forest) : Forest → List (Event × List Str) × Option PyErr
  | .nil => ([], none)
  | .file _ _ _ next => subEventPaths r next
  | .dir n s next =>
    match r.find n with
    | some (.dir s') =>
      andThen (under n (andThen (levelPaths s s', none)
        (if tooMany s s' then ([], some .typeError) else subEventPaths s' s)))
        (subEventPaths r next)
    | _ => subEventPaths r next

def eventPaths (l r : Forest) : List (Event × List Str) × Option PyErr :=
  andThen (levelPaths l r, none) (if tooMany l r then ([], some .typeError) else subEventPaths r l)

/-- The text for an event: common files at the top get `./` in front. -/
def eventText (at_ : List Str) (e : Event × List Str) : Event × Str :=
  (e.1, match e.1, at_ ++ e.2 with
    | .diff, [n] => "./".toList ++ n
    | .same, [n] => "./".toList ++ n
    | _, p => slashed p)

theorem slashed_append (a b : List Str) (ha : a ≠ []) (hb : b ≠ []) :
    slashed (a ++ b) = slashed a ++ '/' :: slashed b := by
  induction a with
  | nil => exact absurd rfl ha
  | cons n a ih =>
    cases a with
    | nil =>
      cases b with
      | nil => exact absurd rfl hb
      | cons m b => rfl
    | cons m a =>
      have := ih (by simp)
      simp only [List.cons_append, slashed] at this ⊢
      rw [this]
      simp

theorem slashed_last {p : List Str} (hp : p ≠ []) (hn : ∀ n ∈ p, IsName n) :
    slashed p ≠ [] ∧ (slashed p).getLast? ≠ some '/' := by
  induction p with
  | nil => exact absurd rfl hp
  | cons n p ih =>
    cases p with
    | nil =>
      have := hn n (by simp)
      refine ⟨this.1, ?_⟩
      simp only [slashed]
      intro h
      obtain ⟨ys, hy⟩ := List.getLast?_eq_some_iff.1 h
      exact this.2.1 (by rw [hy]; simp)
    | cons m p =>
      have := ih (by simp) fun x hx => hn x (by simp [hx])
      simp only [slashed]
      refine ⟨by simp, ?_⟩
      rw [List.getLast?_append]
      rw [List.getLast?_cons]
      rw [List.getLast?_eq_some_getLast this.1] at this ⊢
      simpa using this.2

theorem pathJoin_name {a n : Str} (hn : IsName n) (ha : a ≠ []) (hl : a.getLast? ≠ some '/') :
    pathJoin a n = a ++ '/' :: n := by
  unfold pathJoin
  rw [if_neg, if_neg]
  · simp [ha, hl]
  · intro h
    cases n with
    | nil => simp at h
    | cons c n => exact hn.2.1 (by simp at h; simp [h])

theorem join_slashed {p : List Str} {n : Str} (hp : p ≠ []) (hn : IsName n) (hall : ∀ m ∈ p, IsName m) :
    pathJoin (relText p) n = slashed (p ++ [n]) := by
  obtain ⟨h1, h2⟩ := slashed_last hp hall
  unfold relText
  rw [if_neg hp, pathJoin_name hn h1 h2, slashed_append p [n] hp (by simp)]
  rfl

theorem names_ok {F : Forest} (h : F.Ok) {n : Str} (hn : n ∈ F.names) : IsName n := by
  induction F with
  | nil => simp [Forest.names] at hn
  | file m b t nx ih =>
    rcases List.mem_cons.1 hn with rfl | hn
    · exact h.1
    · exact ih h.2.2 hn
  | dir m s nx _ ih =>
    rcases List.mem_cons.1 hn with rfl | hn
    · exact h.1
    · exact ih h.2.2.2 hn

theorem walk_names {F : Forest} (h : F.Ok) (at_ : List Str) :
    (∀ w ∈ F.walkSubs at_, (∃ p, w.1 = at_ ++ p ∧ ∀ m ∈ p, IsName m) ∧ ∀ g ∈ w.2.2, IsName g.1) ∧
    ∀ g ∈ F.files, IsName g.1 := by
  induction F generalizing at_ with
  | nil => simp [Forest.walkSubs, Forest.files]
  | file m b t nx ih =>
    obtain ⟨h1, h2⟩ := ih h.2.2 at_
    refine ⟨h1, ?_⟩
    intro g hg
    rcases List.mem_cons.1 hg with rfl | hg
    · exact h.1
    · exact h2 g hg
  | dir m s nx ihs ih =>
    obtain ⟨h1, h2⟩ := ih h.2.2.2 at_
    obtain ⟨h3, h4⟩ := ihs h.2.2.1 (at_ ++ [m])
    refine ⟨?_, h2⟩
    intro w hw
    simp only [Forest.walkSubs, List.mem_cons, List.mem_append] at hw
    rcases hw with rfl | hw | hw
    · exact ⟨⟨[m], rfl, by simpa using h.1⟩, h4⟩
    · obtain ⟨⟨p, h5, h6⟩, h7⟩ := h3 w hw
      refine ⟨⟨m :: p, by rw [h5]; simp, ?_⟩, h7⟩
      intro x hx
      rcases List.mem_cons.1 hx with rfl | hx
      · exact h.1
      · exact h6 x hx
    · exact h1 w hw

theorem flatMap_congr {α β : Type} {l : List α} {f g : α → List β} (h : ∀ x ∈ l, f x = g x) :
    l.flatMap f = l.flatMap g := by
  induction l with
  | nil => rfl
  | cons x l ih =>
    rw [List.flatMap_cons, List.flatMap_cons, h x (by simp), ih fun y hy => h y (by simp [hy])]

theorem walk_text {F : Forest} (h : F.Ok) {at_ : List Str} (ha : at_ ≠ []) (han : ∀ m ∈ at_, IsName m)
    (ev : Event) :
    ((F.walk at_).flatMap fun w => w.2.2.map fun g => (ev, pathJoin (relText w.1) g.1)) =
      (F.paths.map fun p => at_ ++ p).map fun p => (ev, slashed p) := by
  have h1 : F.paths.map (fun p => at_ ++ p) = walkPaths (F.walk at_) := by
    rw [walk_at at_, walkPaths_map]
    rfl
  rw [h1, walkPaths, List.map_flatMap]
  apply flatMap_congr
  intro w hw
  rw [List.map_map]
  apply List.map_congr_left
  intro g hg
  have hw' : (∃ p, w.1 = at_ ++ p ∧ ∀ m ∈ p, IsName m) ∧ ∀ g ∈ w.2.2, IsName g.1 := by
    obtain ⟨h2, h3⟩ := walk_names h at_
    rcases List.mem_cons.1 hw with rfl | hw
    · exact ⟨⟨[], by simp, by simp⟩, h3⟩
    · exact h2 w hw
  obtain ⟨⟨p, hp, hpn⟩, hgn⟩ := hw'
  have hne : w.1 ≠ [] := by rw [hp]; simp [ha]
  have hwn : ∀ m ∈ w.1, IsName m := by
    intro m hm
    rw [hp, List.mem_append] at hm
    exact hm.elim (han m) (hpn m)
  simp only [Function.comp_apply]
  rw [join_slashed hne (hgn g hg) hwn]

theorem find_cases (F : Forest) (f : Str) :
    (∃ s, F.find f = some (.dir s)) ∨ ∀ s, F.find f ≠ some (.dir s) := by
  cases hs : F.find f with
  | none => exact .inr (by simp)
  | some it => cases it with
    | dir s => exact .inl ⟨s, rfl⟩
    | file b t => exact .inr (by simp)

theorem match_noDir {F : Forest} {f : Str} (hs : ∀ s, F.find f ≠ some (.dir s)) {α : Type}
    (x : Forest → α) (y : α) : (match F.find f with
      | some (.dir s) => x s
      | _ => y) = y := by
  split
  · rename_i s h; exact absurd h (hs s)
  · rfl

theorem onlyEvents_text {F : Forest} (h : F.Ok) {at_ : List Str} (han : ∀ m ∈ at_, IsName m)
    (ev : Event) (hev : ev = .left ∨ ev = .right) {f : Str} (hf : f ∈ F.names) :
    onlyEvents ev at_ F f = ((onlyPaths F f).map fun p => (ev, p)).map (eventText at_) := by
  unfold onlyEvents onlyPaths
  have htext : ∀ p, eventText at_ (ev, p) = (ev, slashed (at_ ++ p)) := by
    intro p
    unfold eventText
    rcases hev with rfl | rfl <;> rfl
  rcases find_cases F f with ⟨s, hs⟩ | hs
  · simp only [hs]
    rw [walk_text (h.find_dir hs) (by simp)]
    · simp only [List.map_map]
      apply List.map_congr_left
      intro p _
      simp only [Function.comp_apply, htext, List.append_assoc]
      rfl
    · intro m hm
      rw [List.mem_append] at hm
      rcases hm with hm | hm
      · exact han m hm
      · rw [List.mem_singleton.1 hm]
        exact names_ok h hf
  · rw [match_noDir hs]
    split
    · rename_i s h; exact absurd h (hs s)
    simp only [List.map_cons, List.map_nil, htext]
    rw [relText, if_neg (by simp)]

theorem common_text {at_ : List Str} (han : ∀ m ∈ at_, IsName m) (ev : Event)
    (hev : ev = .diff ∨ ev = .same) {f : Str} (hf : IsName f) :
    (ev, pathJoin (relText at_) f) = eventText at_ (ev, [f]) := by
  cases at_ with
  | nil =>
    have : pathJoin (relText []) f = "./".toList ++ f := by
      show pathJoin ['.'] f = _
      rw [pathJoin_name hf (by simp) (by decide)]
      rfl
    rw [this]
    unfold eventText
    rcases hev with rfl | rfl <;> rfl
  | cons n p =>
    rw [join_slashed (by simp) hf han]
    unfold eventText
    cases p <;> rcases hev with rfl | rfl <;> rfl

theorem mem_onlyNames {l r : Forest} {n : Str} : n ∈ onlyNames l r ↔ n ∈ l.names ∧ n ∉ r.names := by
  simp [onlyNames]

theorem mem_commonFiles {x : Bool} {l r : Forest} {n : Str} : n ∈ commonFiles x l r ↔
    ∃ b t c u, l.find n = some (.file b t) ∧ r.find n = some (.file c u) ∧ filesEqual b t c u = x := by
  unfold commonFiles
  rw [List.mem_filter]
  constructor
  · rintro ⟨_, h⟩
    split at h
    · rename_i b t c u h1 h2
      exact ⟨b, t, c, u, h1, h2, by simpa using h⟩
    · simp at h
  · rintro ⟨b, t, c, u, h1, h2, h3⟩
    exact ⟨find_mem_names h1, by rw [h1, h2]; simpa using h3⟩

theorem mem_commonDirs {l r : Forest} {n : Str} : n ∈ commonDirs l r ↔
    ∃ s s', l.find n = some (.dir s) ∧ r.find n = some (.dir s') := by
  unfold commonDirs
  rw [List.mem_filter]
  constructor
  · rintro ⟨_, h⟩
    split at h
    · rename_i s s' h1 h2
      exact ⟨s, s', h1, h2⟩
    · simp at h
  · rintro ⟨s, s', h1, h2⟩
    exact ⟨find_mem_names h1, by rw [h1, h2]⟩

theorem levelEvents_text {l r : Forest} (hl : l.Ok) (hr : r.Ok) {at_ : List Str}
    (han : ∀ m ∈ at_, IsName m) :
    levelEvents at_ l r = (levelPaths l r).map (eventText at_) := by
  unfold levelEvents levelPaths
  simp only [List.map_append, List.map_flatMap]
  congr 1
  · congr 1
    · congr 1
      · apply flatMap_congr
        intro f hf
        exact onlyEvents_text hl han _ (.inl rfl) (mem_onlyNames.1 (mem_sortNames.1 hf)).1
      · apply flatMap_congr
        intro f hf
        exact onlyEvents_text hr han _ (.inr rfl) (mem_onlyNames.1 (mem_sortNames.1 hf)).1
    · rw [List.map_map]
      apply List.map_congr_left
      intro f hf
      obtain ⟨b, t, c, u, h1, _⟩ := mem_commonFiles.1 (mem_sortNames.1 hf)
      exact common_text han _ (.inl rfl) (names_ok hl (find_mem_names h1))
  · rw [List.map_map]
    apply List.map_congr_left
    intro f hf
    obtain ⟨b, t, c, u, h1, _⟩ := mem_commonFiles.1 (mem_sortNames.1 hf)
    exact common_text han _ (.inr rfl) (names_ok hl (find_mem_names h1))

/-- The events that are yielded, given the paths. -/
def toText (at_ : List Str) (x : List (Event × List Str) × Option PyErr) :
    List (Event × Str) × Option PyErr :=
  (x.1.map (eventText at_), x.2)

theorem toText_andThen (at_ : List Str) (x y : List (Event × List Str) × Option PyErr) :
    toText at_ (andThen x y) = andThen (toText at_ x) (toText at_ y) := by
  obtain ⟨a, e⟩ := x
  cases e <;> simp [andThen, toText]

theorem toText_under (at_ : List Str) (n : Str) (x : List (Event × List Str) × Option PyErr) :
    toText at_ (under n x) = toText (at_ ++ [n]) x := by
  unfold toText under
  simp only [List.map_map]
  congr 1
  apply List.map_congr_left
  intro e _
  simp only [Function.comp_apply, eventText, List.append_assoc, List.singleton_append]

theorem subEvents_text {l r : Forest} (hl : l.Ok) (hr : r.Ok) {at_ : List Str}
    (han : ∀ m ∈ at_, IsName m) : subEvents at_ r l = toText at_ (subEventPaths r l) := by
  induction l generalizing r at_ with
  | nil => rfl
  | file n b t nx ih => exact ih hl.2.2 hr han
  | dir n s nx ihs ih =>
    simp only [subEvents, subEventPaths]
    rw [ih hl.2.2.2 hr han]
    rcases find_cases r n with ⟨s', hs'⟩ | hs'
    · simp only [hs']
      have han' : ∀ m ∈ at_ ++ [n], IsName m := by
        intro m hm
        rw [List.mem_append] at hm
        rcases hm with hm | hm
        · exact han m hm
        · rw [List.mem_singleton.1 hm]; exact hl.1
      rw [toText_andThen, toText_under, toText_andThen, levelEvents_text hl.2.2.1 (hr.find_dir hs') han',
        ihs hl.2.2.1 (hr.find_dir hs') han']
      congr 2
      split <;> rfl
    · rw [match_noDir hs']
      split
      · rename_i s h; exact absurd h (hs' s)
      · rfl

theorem compareDirs_text {l r : Forest} (hl : l.Ok) (hr : r.Ok) :
    compareDirs l r = toText [] (eventPaths l r) := by
  unfold compareDirs eventPaths
  rw [toText_andThen, levelEvents_text hl hr (by simp), subEvents_text hl hr (by simp)]
  congr 1
  split <;> rfl

theorem eventText_denotes (e : Event × List Str) :
    (eventText [] e).1 = e.1 ∧ Denotes (eventText [] e).2 e.2 := by
  obtain ⟨ev, p⟩ := e
  refine ⟨rfl, ?_⟩
  unfold eventText Denotes
  simp only [List.nil_append]
  split
  · exact .inr rfl
  · exact .inr rfl
  · exact .inl rfl

/-! ### What the paths are -/

theorem mem_onlyPaths {F : Forest} (h : F.Ok) {f : Str} (hf : f ∈ F.names) {p : List Str} :
    p ∈ onlyPaths F f ↔ p.head? = some f ∧ ∃ b t, FileAt F p b t := by
  obtain ⟨it, hit⟩ := mem_names_find hf
  unfold onlyPaths
  rw [hit]
  cases it with
  | file b t =>
    simp only [List.mem_singleton]
    constructor
    · rintro rfl
      exact ⟨rfl, b, t, (fileAt_cons h).2 (.inl ⟨rfl, hit⟩)⟩
    · rintro ⟨h1, c, u, h2⟩
      cases p with
      | nil => simp at h1
      | cons n q =>
        obtain rfl : n = f := by simpa using h1
        rcases (fileAt_cons h).1 h2 with ⟨rfl, _⟩ | ⟨s, h3, _⟩
        · rfl
        · rw [hit] at h3; simp at h3
  | dir s =>
    simp only [List.mem_map, mem_paths (h.find_dir hit)]
    constructor
    · rintro ⟨q, ⟨b, t, hq⟩, rfl⟩
      exact ⟨rfl, b, t, (fileAt_cons h).2 (.inr ⟨s, hit, hq⟩)⟩
    · rintro ⟨h1, c, u, h2⟩
      cases p with
      | nil => simp at h1
      | cons n q =>
        obtain rfl : n = f := by simpa using h1
        rcases (fileAt_cons h).1 h2 with ⟨_, h3⟩ | ⟨s', h3, h4⟩
        · rw [hit] at h3; simp at h3
        · rw [hit] at h3
          obtain rfl : s = s' := by simpa using h3
          exact ⟨q, ⟨c, u, h4⟩, rfl⟩

/-- The events about one directory, by the first name of the path. -/
def LevelEvent (l r : Forest) : Event → List Str → Prop
  | .left, p => ∃ n q, p = n :: q ∧ n ∉ r.names ∧ ∃ b t, FileAt l p b t
  | .right, p => ∃ n q, p = n :: q ∧ n ∉ l.names ∧ ∃ b t, FileAt r p b t
  | .diff, p => ∃ n b t c u, p = [n] ∧ l.find n = some (.file b t) ∧ r.find n = some (.file c u) ∧
      ¬ Shallow b t c u
  | .same, p => ∃ n b t c u, p = [n] ∧ l.find n = some (.file b t) ∧ r.find n = some (.file c u) ∧
      Shallow b t c u

theorem mem_onlyAll {l r : Forest} (hl : l.Ok) {p : List Str} :
    p ∈ (sortNames (onlyNames l r)).flatMap (onlyPaths l) ↔
      ∃ n q, p = n :: q ∧ n ∉ r.names ∧ ∃ b t, FileAt l p b t := by
  rw [List.mem_flatMap]
  constructor
  · rintro ⟨f, hf, hp⟩
    obtain ⟨h1, h2⟩ := mem_onlyNames.1 (mem_sortNames.1 hf)
    obtain ⟨h3, h4⟩ := (mem_onlyPaths hl h1).1 hp
    cases p with
    | nil => simp at h3
    | cons n q =>
      obtain rfl : n = f := by simpa using h3
      exact ⟨n, q, rfl, h2, h4⟩
  · rintro ⟨n, q, rfl, h2, b, t, h4⟩
    have h1 : n ∈ l.names := by
      obtain ⟨m, q', h5, h6⟩ := h4.head_mem
      rw [(List.cons.inj h5).1]
      exact h6
    exact ⟨n, mem_sortNames.2 (mem_onlyNames.2 ⟨h1, h2⟩), (mem_onlyPaths hl h1).2 ⟨rfl, b, t, h4⟩⟩

theorem mem_levelPaths {l r : Forest} (hl : l.Ok) (hr : r.Ok) {ev : Event} {p : List Str} :
    (ev, p) ∈ levelPaths l r ↔ LevelEvent l r ev p := by
  unfold levelPaths
  simp only [List.mem_append, List.mem_map, Prod.mk.injEq, mem_sortNames, mem_commonFiles]
  cases ev <;>
    simp only [reduceCtorEq, false_and, and_false, exists_false, or_false, false_or, true_and,
      exists_eq_right, LevelEvent]
  · exact mem_onlyAll hl
  · exact mem_onlyAll hr
  · constructor
    · rintro ⟨n, ⟨b, t, c, u, h1, h2, h3⟩, rfl⟩
      refine ⟨n, b, t, c, u, rfl, h1, h2, ?_⟩
      rw [← filesEqual_iff, h3]
      simp
    · rintro ⟨n, b, t, c, u, rfl, h1, h2, h3⟩
      rw [← filesEqual_iff] at h3
      exact ⟨n, ⟨b, t, c, u, h1, h2, by simpa using h3⟩, rfl⟩
  · constructor
    · rintro ⟨n, ⟨b, t, c, u, h1, h2, h3⟩, rfl⟩
      exact ⟨n, b, t, c, u, rfl, h1, h2, (filesEqual_iff _ _ _ _).1 h3⟩
    · rintro ⟨n, b, t, c, u, rfl, h1, h2, h3⟩
      exact ⟨n, ⟨b, t, c, u, h1, h2, (filesEqual_iff _ _ _ _).2 h3⟩, rfl⟩

theorem mem_andThen {α : Type} {a b : List α × Option PyErr} {x : α} (h : x ∈ (andThen a b).1) :
    x ∈ a.1 ∨ (a.2 = none ∧ x ∈ b.1) := by
  unfold andThen at h
  split at h
  · exact .inl h
  · rename_i h2
    rcases List.mem_append.1 h with h | h
    · exact .inl h
    · exact .inr ⟨h2, h⟩

theorem mem_andThen_ok {α : Type} {a b : List α × Option PyErr} {x : α} (h : a.2 = none) :
    x ∈ (andThen a b).1 ↔ x ∈ a.1 ∨ x ∈ b.1 := by
  unfold andThen
  rw [h]
  simp

theorem andThen_err {α : Type} {a b : List α × Option PyErr} :
    (andThen a b).2 = none ↔ a.2 = none ∧ b.2 = none := by
  unfold andThen
  split
  · rename_i h; simp [h]
  · rename_i h; simp [h]

theorem subEventPaths_dir (r : Forest) (n : Str) (s nx : Forest) : subEventPaths r (.dir n s nx) =
    match r.find n with
    | some (.dir s') => andThen (under n (eventPaths s s')) (subEventPaths r nx)
    | _ => subEventPaths r nx := rfl

/-- Events about subdirectories are events about common subdirectories. -/
theorem mem_subEventPaths {l r : Forest} (hl : l.Ok) {ev : Event} {p : List Str}
    (h : (ev, p) ∈ (subEventPaths r l).1) :
    ∃ n q s s', p = n :: q ∧ l.find n = some (.dir s) ∧ r.find n = some (.dir s') ∧
      (ev, q) ∈ (eventPaths s s').1 := by
  induction l with
  | nil => simp [subEventPaths] at h
  | file m b t nx ih =>
    obtain ⟨n, q, s, s', h1, h2, h3⟩ := ih hl.2.2 h
    have hm : m ≠ n := by rintro rfl; exact hl.2.1 (find_mem_names h2)
    exact ⟨n, q, s, s', h1, by simp [Forest.find, hm, h2], h3⟩
  | dir m s nx _ ih =>
    have hnext : (ev, p) ∈ (subEventPaths r nx).1 → ∃ n q s₁ s', p = n :: q ∧
        (Forest.dir m s nx).find n = some (.dir s₁) ∧ r.find n = some (.dir s') ∧
        (ev, q) ∈ (eventPaths s₁ s').1 := by
      intro h
      obtain ⟨n, q, s₁, s', h1, h2, h3⟩ := ih hl.2.2.2 h
      have hm : m ≠ n := by rintro rfl; exact hl.2.1 (find_mem_names h2)
      exact ⟨n, q, s₁, s', h1, by simp [Forest.find, hm, h2], h3⟩
    rw [subEventPaths_dir] at h
    rcases find_cases r m with ⟨s', hs'⟩ | hs'
    · simp only [hs'] at h
      rcases mem_andThen h with h | ⟨_, h⟩
      · obtain ⟨e, he, h2⟩ := List.mem_map.1 h
        obtain ⟨rfl, rfl⟩ := Prod.mk.inj h2
        exact ⟨m, e.2, s, s', rfl, by simp [Forest.find], hs', he⟩
      · exact hnext h
    · rw [match_noDir hs'] at h
      exact hnext h

theorem find_next_of_ok {m : Str} {s nx : Forest} (h : (Forest.dir m s nx).Ok) {n : Str} {s₁ : Forest} :
    (Forest.dir m s nx).find n = some (.dir s₁) ↔ (n = m ∧ s₁ = s) ∨ nx.find n = some (.dir s₁) := by
  simp only [Forest.find]
  by_cases hm : m = n
  · subst hm
    rw [(find_none_iff).2 h.2.1]
    simp [eq_comm]
  · simp [hm, eq_comm]

theorem find_next_file {m : Str} {b : Bytes} {t : Int} {nx : Forest} (h : (Forest.file m b t nx).Ok)
    {n : Str} {s₁ : Forest} :
    (Forest.file m b t nx).find n = some (.dir s₁) ↔ nx.find n = some (.dir s₁) := by
  simp only [Forest.find]
  by_cases hm : m = n
  · subst hm
    rw [(find_none_iff).2 h.2.1]
    simp
  · simp [hm]

/-- The subdirectories raise nothing iff none of the common ones does. -/
theorem subEventPaths_ok {l r : Forest} (hl : l.Ok) : (subEventPaths r l).2 = none ↔
    ∀ n s s', l.find n = some (.dir s) → r.find n = some (.dir s') → (eventPaths s s').2 = none := by
  induction l with
  | nil => simp [subEventPaths, Forest.find]
  | file m b t nx ih =>
    rw [show subEventPaths r (.file m b t nx) = subEventPaths r nx from rfl, ih hl.2.2]
    simp only [find_next_file hl]
  | dir m s nx _ ih =>
    simp only [find_next_of_ok hl]
    rw [subEventPaths_dir]
    rcases find_cases r m with ⟨s', hs'⟩ | hs'
    · simp only [hs']
      rw [andThen_err, ih hl.2.2.2]
      constructor
      · rintro ⟨h1, h2⟩ n s₁ s₂ (⟨rfl, rfl⟩ | h3) h4
        · rw [hs'] at h4
          obtain rfl : s' = s₂ := by simpa using h4
          exact h1
        · exact h2 n s₁ s₂ h3 h4
      · intro h
        exact ⟨h m s s' (.inl ⟨rfl, rfl⟩) hs', fun n s₁ s₂ h3 h4 => h n s₁ s₂ (.inr h3) h4⟩
    · rw [match_noDir hs', ih hl.2.2.2]
      constructor
      · rintro h n s₁ s₂ (⟨rfl, rfl⟩ | h3) h4
        · exact absurd h4 (hs' s₂)
        · exact h n s₁ s₂ h3 h4
      · exact fun h n s₁ s₂ h3 h4 => h n s₁ s₂ (.inr h3) h4

theorem mem_subEventPaths_ok {l r : Forest} (hl : l.Ok) (he : (subEventPaths r l).2 = none)
    {ev : Event} {n : Str} {q : List Str} {s s' : Forest} (h1 : l.find n = some (.dir s))
    (h2 : r.find n = some (.dir s')) (h3 : (ev, q) ∈ (eventPaths s s').1) :
    (ev, n :: q) ∈ (subEventPaths r l).1 := by
  induction l with
  | nil => simp [Forest.find] at h1
  | file m b t nx ih =>
    exact ih hl.2.2 he ((find_next_file hl).1 h1)
  | dir m s₁ nx _ ih =>
    rw [subEventPaths_dir] at he ⊢
    rcases find_cases r m with ⟨s₂, hs'⟩ | hs'
    · simp only [hs'] at he ⊢
      obtain ⟨e1, e2⟩ := andThen_err.1 he
      rw [mem_andThen_ok e1]
      rcases (find_next_of_ok hl).1 h1 with ⟨rfl, rfl⟩ | h1
      · rw [hs'] at h2
        obtain rfl : s₂ = s' := by simpa using h2
        exact .inl (List.mem_map.2 ⟨_, h3, rfl⟩)
      · exact .inr (ih hl.2.2.2 e2 h1)
    · rw [match_noDir hs'] at he ⊢
      rcases (find_next_of_ok hl).1 h1 with ⟨rfl, rfl⟩ | h1
      · exact absurd h2 (hs' s')
      · exact ih hl.2.2.2 he h1

theorem levelEvent_reported {l r : Forest} (hl : l.Ok) (hr : r.Ok) {ev : Event} {p : List Str}
    (h : LevelEvent l r ev p) : Reporting Shallow l r ev p := by
  cases ev with
  | left =>
    obtain ⟨n, q, rfl, h1, h2⟩ := h
    refine ⟨h2, ?_⟩
    rintro ⟨b, t, h3⟩
    obtain ⟨m, q', h5, h6⟩ := h3.head_mem
    rw [(List.cons.inj h5).1] at h1
    exact h1 h6
  | right =>
    obtain ⟨n, q, rfl, h1, h2⟩ := h
    refine ⟨h2, ?_⟩
    rintro ⟨b, t, h3⟩
    obtain ⟨m, q', h5, h6⟩ := h3.head_mem
    rw [(List.cons.inj h5).1] at h1
    exact h1 h6
  | same =>
    obtain ⟨n, b, t, c, u, rfl, h1, h2, h3⟩ := h
    exact ⟨b, t, c, u, (fileAt_cons hl).2 (.inl ⟨rfl, h1⟩), (fileAt_cons hr).2 (.inl ⟨rfl, h2⟩), h3⟩
  | diff =>
    obtain ⟨n, b, t, c, u, rfl, h1, h2, h3⟩ := h
    exact ⟨b, t, c, u, (fileAt_cons hl).2 (.inl ⟨rfl, h1⟩), (fileAt_cons hr).2 (.inl ⟨rfl, h2⟩), h3⟩

theorem fileAt_sub {F : Forest} (hF : F.Ok) {n : Str} {s : Forest} (h : F.find n = some (.dir s))
    {p : List Str} {b : Bytes} {t : Int} : FileAt F (n :: p) b t ↔ FileAt s p b t := by
  rw [fileAt_cons hF, h]
  simp

theorem reported_sub {eq : Bytes → Int → Bytes → Int → Prop} {l r : Forest} (hl : l.Ok) (hr : r.Ok)
    {n : Str} {s s' : Forest} (h1 : l.find n = some (.dir s)) (h2 : r.find n = some (.dir s'))
    {ev : Event} {p : List Str} : Reporting eq l r ev (n :: p) ↔ Reporting eq s s' ev p := by
  cases ev <;> simp only [Reporting, fileAt_sub hl h1, fileAt_sub hr h2]

/-- What is yielded is right. -/
theorem eventPaths_sound {l r : Forest} (hl : l.Ok) (hr : r.Ok) {ev : Event} {p : List Str}
    (h : (ev, p) ∈ (eventPaths l r).1) : Reporting Shallow l r ev p := by
  induction p generalizing l r with
  | nil =>
    rcases mem_andThen h with h | ⟨_, h⟩
    · exact levelEvent_reported hl hr ((mem_levelPaths hl hr).1 h)
    · split at h
      · simp at h
      · obtain ⟨n, q, s, s', h1, _⟩ := mem_subEventPaths hl h
        cases h1
  | cons n p ih =>
    rcases mem_andThen h with h | ⟨_, h⟩
    · exact levelEvent_reported hl hr ((mem_levelPaths hl hr).1 h)
    · split at h
      · simp at h
      · obtain ⟨m, q, s, s', h1, h2, h3, h4⟩ := mem_subEventPaths hl h
        obtain ⟨rfl, rfl⟩ := List.cons.inj h1
        rw [reported_sub hl hr h2 h3]
        exact ih (hl.find_dir h2) (hr.find_dir h3) h4

/-! ### Each once -/

theorem onlyPaths_nodup {F : Forest} (h : F.Ok) (f : Str) : (onlyPaths F f).Nodup := by
  unfold onlyPaths
  split
  · rename_i s hs
    exact nodup_map_inj (by simp) (paths_nodup (h.find_dir hs)).1
  · simp

theorem onlyPaths_head {F : Forest} {f : Str} {p : List Str} (h : p ∈ onlyPaths F f) :
    p.head? = some f := by
  unfold onlyPaths at h
  split at h
  · obtain ⟨q, _, rfl⟩ := List.mem_map.1 h
    rfl
  · rw [List.mem_singleton.1 h]
    rfl

theorem flatMap_onlyPaths_nodup {F : Forest} (h : F.Ok) {fs : List Str} (hf : fs.Nodup) :
    (fs.flatMap (onlyPaths F)).Nodup := by
  induction fs with
  | nil => exact List.nodup_nil
  | cons f fs ih =>
    rw [List.nodup_cons] at hf
    rw [List.flatMap_cons, List.nodup_append]
    refine ⟨onlyPaths_nodup h f, ih hf.2, ?_⟩
    intro a ha b hb hab
    subst hab
    obtain ⟨g, hg, hb⟩ := List.mem_flatMap.1 hb
    have h1 := onlyPaths_head ha
    rw [onlyPaths_head hb] at h1
    rw [Option.some.inj h1] at hg
    exact hf.1 hg

theorem sortNames_nodup {l : List Str} (h : l.Nodup) : (sortNames l).Nodup :=
  (sortNames_perm l).nodup_iff.2 h

theorem levelPaths_nodup {l r : Forest} (hl : l.Ok) (hr : r.Ok) : (levelPaths l r).Nodup := by
  have hfl : ∀ (f : Str → Bool) (F : Forest), F.Ok → (F.names.filter f).Nodup :=
    fun f F hF => hF.nodup.sublist List.filter_sublist
  unfold levelPaths
  rw [List.nodup_append, List.nodup_append, List.nodup_append]
  refine ⟨⟨⟨?_, ?_, ?_⟩, ?_, ?_⟩, ?_, ?_⟩
  · exact nodup_map_inj (by simp) (flatMap_onlyPaths_nodup hl (sortNames_nodup (hfl _ l hl)))
  · exact nodup_map_inj (by simp) (flatMap_onlyPaths_nodup hr (sortNames_nodup (hfl _ r hr)))
  · intro a ha b hb hab
    subst hab
    obtain ⟨x, _, rfl⟩ := List.mem_map.1 ha
    obtain ⟨y, _, h⟩ := List.mem_map.1 hb
    simp at h
  · exact nodup_map_inj (by simp) (sortNames_nodup (hfl _ l hl))
  · intro a ha b hb hab
    subst hab
    obtain ⟨y, _, rfl⟩ := List.mem_map.1 hb
    rw [List.mem_append, List.mem_map, List.mem_map] at ha
    rcases ha with ⟨x, _, h⟩ | ⟨x, _, h⟩ <;> simp at h
  · exact nodup_map_inj (by simp) (sortNames_nodup (hfl _ l hl))
  · intro a ha b hb hab
    subst hab
    obtain ⟨y, _, rfl⟩ := List.mem_map.1 hb
    rw [List.mem_append, List.mem_append, List.mem_map, List.mem_map, List.mem_map] at ha
    rcases ha with (⟨x, _, h⟩ | ⟨x, _, h⟩) | ⟨x, _, h⟩ <;> simp at h

theorem andThen_nodup {α : Type} {a b : List α × Option PyErr} (ha : a.1.Nodup) (hb : b.1.Nodup)
    (hd : ∀ x, x ∈ a.1 → x ∉ b.1) : (andThen a b).1.Nodup := by
  unfold andThen
  split
  · exact ha
  · rw [List.nodup_append]
    refine ⟨ha, hb, ?_⟩
    intro x hx y hy hxy
    subst hxy
    exact hd x hx hy

theorem levelEvent_head {l r : Forest} (hl : l.Ok) (hr : r.Ok) {ev : Event} {n : Str} {p : List Str}
    (h : LevelEvent l r ev (n :: p)) {s s' : Forest} (h1 : l.find n = some (.dir s))
    (h2 : r.find n = some (.dir s')) : False := by
  cases ev with
  | left =>
    obtain ⟨m, q, e, h3, _⟩ := h
    rw [← (List.cons.inj e).1] at h3
    exact h3 (find_mem_names h2)
  | right =>
    obtain ⟨m, q, e, h3, _⟩ := h
    rw [← (List.cons.inj e).1] at h3
    exact h3 (find_mem_names h1)
  | same =>
    obtain ⟨m, _, _, _, _, e, h3, _⟩ := h
    rw [← (List.cons.inj e).1, h1] at h3
    simp at h3
  | diff =>
    obtain ⟨m, _, _, _, _, e, h3, _⟩ := h
    rw [← (List.cons.inj e).1, h1] at h3
    simp at h3

/-- The pairs are yielded once. -/
theorem eventPaths_nodup {l r : Forest} (hl : l.Ok) (hr : r.Ok) : (eventPaths l r).1.Nodup := by
  have key : ∀ (l r : Forest), l.Ok → r.Ok → (subEventPaths r l).1.Nodup → (eventPaths l r).1.Nodup := by
    intro l r hl hr h
    refine andThen_nodup (levelPaths_nodup hl hr) ?_ ?_
    · split
      · exact List.nodup_nil
      · exact h
    · rintro ⟨ev, p⟩ hx hy
      split at hy
      · simp at hy
      · obtain ⟨n, q, s, s', rfl, h1, h2, _⟩ := mem_subEventPaths hl hy
        exact levelEvent_head hl hr ((mem_levelPaths hl hr).1 hx) h1 h2
  refine key l r hl hr ?_
  induction l generalizing r with
  | nil => exact List.nodup_nil
  | file m b t nx ih => exact ih hl.2.2 hr
  | dir m s nx ihs ih =>
    rw [subEventPaths_dir]
    rcases find_cases r m with ⟨s', hs'⟩ | hs'
    · simp only [hs']
      refine andThen_nodup ?_ (ih hl.2.2.2 hr) ?_
      · refine nodup_map_inj ?_ (key s s' hl.2.2.1 (hr.find_dir hs') (ihs hl.2.2.1 (hr.find_dir hs')))
        rintro ⟨a, b⟩ ⟨c, d⟩ h
        simpa using h
      · rintro ⟨ev, p⟩ hx hy
        obtain ⟨e, _, h1⟩ := List.mem_map.1 hx
        obtain ⟨n, q, s₁, s₂, rfl, h2, _⟩ := mem_subEventPaths hl.2.2.2 hy
        have : m = n := (List.cons.inj (Prod.mk.inj h1).2).1
        subst this
        exact hl.2.1 (find_mem_names h2)
    · rw [match_noDir hs']
      exact ih hl.2.2.2 hr

theorem reported_unique {l r : Forest} (hl : l.Ok) (hr : r.Ok) {ev ev' : Event} {p : List Str}
    (h : Reporting Shallow l r ev p) (h' : Reporting Shallow l r ev' p) : ev = ev' := by
  cases ev <;> cases ev' <;> simp only [reduceCtorEq] <;> simp only [Reporting] at h h' <;> exfalso
  · exact h'.2 h.1
  · obtain ⟨b, t, c, u, _, h2, _⟩ := h'; exact h.2 ⟨c, u, h2⟩
  · obtain ⟨b, t, c, u, _, h2, _⟩ := h'; exact h.2 ⟨c, u, h2⟩
  · exact h.2 h'.1
  · obtain ⟨b, t, c, u, h1, _⟩ := h'; exact h.2 ⟨b, t, h1⟩
  · obtain ⟨b, t, c, u, h1, _⟩ := h'; exact h.2 ⟨b, t, h1⟩
  · obtain ⟨b, t, c, u, _, h2, _⟩ := h; exact h'.2 ⟨c, u, h2⟩
  · obtain ⟨b, t, c, u, h1, _⟩ := h; exact h'.2 ⟨b, t, h1⟩
  · obtain ⟨b, t, c, u, h1, h2, h3⟩ := h
    obtain ⟨b', t', c', u', h1', h2', h3'⟩ := h'
    obtain ⟨rfl, rfl⟩ := h1.unique hl h1'
    obtain ⟨rfl, rfl⟩ := h2.unique hr h2'
    exact h3 h3'
  · obtain ⟨b, t, c, u, _, h2, _⟩ := h; exact h'.2 ⟨c, u, h2⟩
  · obtain ⟨b, t, c, u, h1, _⟩ := h; exact h'.2 ⟨b, t, h1⟩
  · obtain ⟨b, t, c, u, h1, h2, h3⟩ := h
    obtain ⟨b', t', c', u', h1', h2', h3'⟩ := h'
    obtain ⟨rfl, rfl⟩ := h1.unique hl h1'
    obtain ⟨rfl, rfl⟩ := h2.unique hr h2'
    exact h3' h3

theorem nodup_map_on {α β : Type} {f : α → β} {l : List α} (h : l.Nodup)
    (hf : ∀ x ∈ l, ∀ y ∈ l, f x = f y → x = y) : (l.map f).Nodup := by
  induction l with
  | nil => exact List.nodup_nil
  | cons a l ih =>
    rw [List.nodup_cons] at h
    rw [List.map_cons, List.nodup_cons]
    refine ⟨fun hm => ?_, ih h.2 fun x hx y hy => hf x (by simp [hx]) y (by simp [hy])⟩
    obtain ⟨b, hb, hab⟩ := List.mem_map.1 hm
    rw [hf b (by simp [hb]) a (by simp) hab] at hb
    exact h.1 hb

theorem eventPaths_once {l r : Forest} (hl : l.Ok) (hr : r.Ok) :
    ((eventPaths l r).1.map Prod.snd).Nodup := by
  refine nodup_map_on (eventPaths_nodup hl hr) ?_
  rintro ⟨a, p⟩ hx ⟨b, q⟩ hy h
  simp only at h
  subst h
  rw [reported_unique hl hr (eventPaths_sound hl hr hx) (eventPaths_sound hl hr hy)]

/-! ### C59 -/

/-- No name is a file on one side and a directory on the other. -/
def NoClash (l r : Forest) : Prop :=
  ∀ p, ¬ ((∃ b t, FileAt l p b t) ∧ DirAt r p) ∧ ¬ (DirAt l p ∧ ∃ b t, FileAt r p b t)

/-- No directory that is in both trees has two subdirectories that are in both trees. -/
def OneCommon (l r : Forest) : Prop :=
  ∀ p a b, DirAt l (p ++ [a]) → DirAt r (p ++ [a]) → DirAt l (p ++ [b]) → DirAt r (p ++ [b]) → a = b

theorem tooMany_iff {l r : Forest} (hl : l.Ok) (hr : r.Ok) : tooMany l r = true ↔
    ∃ a b, a ≠ b ∧ DirAt l [a] ∧ DirAt r [a] ∧ DirAt l [b] ∧ DirAt r [b] := by
  have hd : ∀ n, n ∈ commonDirs l r ↔ DirAt l [n] ∧ DirAt r [n] := by
    intro n
    rw [mem_commonDirs, dirAt_cons hl, dirAt_cons hr]
    simp
  have hn : (commonDirs l r).Nodup := hl.nodup.sublist List.filter_sublist
  unfold tooMany
  rw [decide_eq_true_eq]
  constructor
  · intro h
    match hc : commonDirs l r with
    | [] => rw [hc] at h; simp at h
    | [x] => rw [hc] at h; simp at h
    | x :: y :: zs =>
      rw [hc] at hn
      have hx := (hd x).1 (by rw [hc]; simp)
      have hy := (hd y).1 (by rw [hc]; simp)
      exact ⟨x, y, fun e => (List.nodup_cons.1 hn).1 (by simp [e]), hx.1, hx.2, hy.1, hy.2⟩
  · rintro ⟨a, b, hab, h1, h2, h3, h4⟩
    have ha := (hd a).2 ⟨h1, h2⟩
    have hb := (hd b).2 ⟨h3, h4⟩
    match hc : commonDirs l r with
    | [] => rw [hc] at ha; simp at ha
    | [x] =>
      rw [hc] at ha hb
      exact absurd ((List.mem_singleton.1 ha).trans (List.mem_singleton.1 hb).symm) hab
    | x :: y :: zs => simp

theorem dirAt_sub {F : Forest} (hF : F.Ok) {n : Str} {s : Forest} (h : F.find n = some (.dir s))
    {p : List Str} (hp : p ≠ []) : DirAt F (n :: p) ↔ DirAt s p := by
  rw [dirAt_cons hF, h]
  simp [hp]

theorem oneCommon_cons {l r : Forest} (hl : l.Ok) (hr : r.Ok) : OneCommon l r ↔
    tooMany l r = false ∧ ∀ n s s', l.find n = some (.dir s) → r.find n = some (.dir s') →
      OneCommon s s' := by
  constructor
  · intro h
    constructor
    · cases ht : tooMany l r with
      | false => rfl
      | true =>
        obtain ⟨a, b, hab, h1, h2, h3, h4⟩ := (tooMany_iff hl hr).1 ht
        exact absurd (h [] a b h1 h2 h3 h4) hab
    · intro n s s' h1 h2 p a b d1 d2 d3 d4
      exact h (n :: p) a b ((dirAt_sub hl h1 (by simp)).2 d1) ((dirAt_sub hr h2 (by simp)).2 d2)
        ((dirAt_sub hl h1 (by simp)).2 d3) ((dirAt_sub hr h2 (by simp)).2 d4)
  · rintro ⟨ht, hs⟩ p a b d1 d2 d3 d4
    cases p with
    | nil =>
      apply Classical.byContradiction
      intro hab
      rw [(tooMany_iff hl hr).2 ⟨a, b, hab, d1, d2, d3, d4⟩] at ht
      cases ht
    | cons n p =>
      obtain ⟨s, h1, _⟩ := (dirAt_cons hl).1 d1
      obtain ⟨s', h2, _⟩ := (dirAt_cons hr).1 d2
      exact hs n s s' h1 h2 p a b ((dirAt_sub hl h1 (by simp)).1 d1) ((dirAt_sub hr h2 (by simp)).1 d2)
        ((dirAt_sub hl h1 (by simp)).1 d3) ((dirAt_sub hr h2 (by simp)).1 d4)

theorem eventPaths_err {l r : Forest} (hl : l.Ok) (hr : r.Ok) :
    (eventPaths l r).2 = none ↔ OneCommon l r := by
  suffices ∀ (k : Nat) (l r : Forest), sizeOf l ≤ k → l.Ok → r.Ok →
      ((eventPaths l r).2 = none ↔ OneCommon l r) from this _ l r (Nat.le_refl _) hl hr
  intro k
  induction k with
  | zero => intro F _ h; cases F <;> simp at h <;> omega
  | succ k ih =>
    intro l r hk hl hr
    rw [oneCommon_cons hl hr]
    unfold eventPaths
    rw [andThen_err]
    simp only [true_and]
    cases ht : tooMany l r with
    | true => simp
    | false =>
      simp only [Bool.false_eq_true, if_false, true_and]
      rw [subEventPaths_ok hl]
      constructor
      · intro h n s s' h1 h2
        exact (ih s s' (by have := Forest.sizeOf_find h1; omega) (hl.find_dir h1)
          (hr.find_dir h2)).1 (h n s s' h1 h2)
      · intro h n s s' h1 h2
        exact (ih s s' (by have := Forest.sizeOf_find h1; omega) (hl.find_dir h1)
          (hr.find_dir h2)).2 (h n s s' h1 h2)

/-- The only exception is a `TypeError`. -/
theorem eventPaths_typeError (l r : Forest) (e : PyErr) (h : (eventPaths l r).2 = some e) :
    e = .typeError := by
  have key : ∀ (l r : Forest), (∀ e, (subEventPaths r l).2 = some e → e = .typeError) →
      ∀ e, (eventPaths l r).2 = some e → e = .typeError := by
    intro l r h e he
    unfold eventPaths andThen at he
    simp only at he
    split at he
    · exact (Option.some.inj he).symm
    · exact h e he
  refine key l r ?_ e h
  clear h e
  intro e h
  induction l generalizing r e with
  | nil => simp [subEventPaths] at h
  | file m b t nx ih => exact ih r _ h
  | dir m s nx ihs ih =>
    rw [subEventPaths_dir] at h
    rcases find_cases r m with ⟨s', hs'⟩ | hs'
    · simp only [hs'] at h
      unfold andThen at h
      split at h
      · rename_i e' he'
        simp only [Option.some.injEq] at h
        subst h
        exact key s s' (fun e he => ihs s' e he) _ he'
      · exact ih r _ h
    · rw [match_noDir hs'] at h
      exact ih r _ h

theorem noClash_sub {l r : Forest} (hl : l.Ok) (hr : r.Ok) (h : NoClash l r) {n : Str} {s s' : Forest}
    (h1 : l.find n = some (.dir s)) (h2 : r.find n = some (.dir s')) : NoClash s s' := by
  intro p
  obtain ⟨c1, c2⟩ := h (n :: p)
  constructor
  · rintro ⟨⟨b, t, hf⟩, hd⟩
    exact c1 ⟨⟨b, t, (fileAt_sub hl h1).2 hf⟩, (dirAt_sub hr h2 hd.ne_nil).2 hd⟩
  · rintro ⟨hd, b, t, hf⟩
    exact c2 ⟨(dirAt_sub hl h1 hd.ne_nil).2 hd, b, t, (fileAt_sub hr h2).2 hf⟩

/-- Everything is reported. -/
theorem eventPaths_complete {l r : Forest} (hl : l.Ok) (hr : r.Ok) (hc : NoClash l r)
    (ho : OneCommon l r) {ev : Event} {p : List Str} (h : Reporting Shallow l r ev p) :
    (ev, p) ∈ (eventPaths l r).1 := by
  induction p generalizing l r with
  | nil =>
    exfalso
    cases ev
    · obtain ⟨⟨b, t, h⟩, _⟩ := h; exact h.ne_nil rfl
    · obtain ⟨⟨b, t, h⟩, _⟩ := h; exact h.ne_nil rfl
    · obtain ⟨_, _, _, _, h, _⟩ := h; exact h.ne_nil rfl
    · obtain ⟨_, _, _, _, h, _⟩ := h; exact h.ne_nil rfl
  | cons n p ih =>
    have hlevel : LevelEvent l r ev (n :: p) → (ev, n :: p) ∈ (eventPaths l r).1 := by
      intro h
      rw [← mem_levelPaths hl hr] at h
      exact (mem_andThen_ok rfl).2 (.inl h)
    obtain ⟨c1, c2⟩ := hc [n]
    cases hln : l.find n with
    | none =>
      have hnl : n ∉ l.names := find_none_iff.1 hln
      have hno : ∀ b t, ¬ FileAt l (n :: p) b t := by
        intro b t h
        obtain ⟨m, q, e, hm⟩ := h.head_mem
        rw [← (List.cons.inj e).1] at hm
        exact hnl hm
      cases ev with
      | left => obtain ⟨⟨b, t, h⟩, _⟩ := h; exact absurd h (hno b t)
      | right => exact hlevel ⟨n, p, rfl, hnl, h.1⟩
      | same => obtain ⟨b, t, _, _, h, _⟩ := h; exact absurd h (hno b t)
      | diff => obtain ⟨b, t, _, _, h, _⟩ := h; exact absurd h (hno b t)
    | some it =>
      cases hrn : r.find n with
      | none =>
        have hnr : n ∉ r.names := find_none_iff.1 hrn
        have hno : ∀ b t, ¬ FileAt r (n :: p) b t := by
          intro b t h
          obtain ⟨m, q, e, hm⟩ := h.head_mem
          rw [← (List.cons.inj e).1] at hm
          exact hnr hm
        cases ev with
        | left => exact hlevel ⟨n, p, rfl, hnr, h.1⟩
        | right => obtain ⟨⟨b, t, h⟩, _⟩ := h; exact absurd h (hno b t)
        | same => obtain ⟨_, _, b, t, _, h, _⟩ := h; exact absurd h (hno b t)
        | diff => obtain ⟨_, _, b, t, _, h, _⟩ := h; exact absurd h (hno b t)
      | some it' =>
        cases it with
        | file b t =>
          cases it' with
          | dir s' =>
            exact absurd ⟨⟨b, t, (fileAt_cons hl).2 (.inl ⟨rfl, hln⟩)⟩,
              (dirAt_cons hr).2 ⟨s', hrn, .inl rfl⟩⟩ c1
          | file c u =>
            have hl' : ∀ b' t', FileAt l (n :: p) b' t' ↔ p = [] ∧ b = b' ∧ t = t' := by
              intro b' t'
              rw [fileAt_cons hl, hln]
              simp
            have hr' : ∀ b' t', FileAt r (n :: p) b' t' ↔ p = [] ∧ c = b' ∧ u = t' := by
              intro b' t'
              rw [fileAt_cons hr, hrn]
              simp
            cases ev with
            | left =>
              obtain ⟨⟨b', t', h1⟩, h2⟩ := h
              exact absurd ⟨c, u, (hr' c u).2 ⟨((hl' _ _).1 h1).1, rfl, rfl⟩⟩ h2
            | right =>
              obtain ⟨⟨b', t', h1⟩, h2⟩ := h
              exact absurd ⟨b, t, (hl' b t).2 ⟨((hr' _ _).1 h1).1, rfl, rfl⟩⟩ h2
            | same =>
              obtain ⟨b', t', c', u', h1, h2, h3⟩ := h
              obtain ⟨rfl, rfl, rfl⟩ := (hl' _ _).1 h1
              obtain ⟨_, rfl, rfl⟩ := (hr' _ _).1 h2
              exact hlevel ⟨n, b, t, c, u, rfl, hln, hrn, h3⟩
            | diff =>
              obtain ⟨b', t', c', u', h1, h2, h3⟩ := h
              obtain ⟨rfl, rfl, rfl⟩ := (hl' _ _).1 h1
              obtain ⟨_, rfl, rfl⟩ := (hr' _ _).1 h2
              exact hlevel ⟨n, b, t, c, u, rfl, hln, hrn, h3⟩
        | dir s =>
          cases it' with
          | file c u =>
            exact absurd ⟨(dirAt_cons hl).2 ⟨s, hln, .inl rfl⟩, c, u,
              (fileAt_cons hr).2 (.inl ⟨rfl, hrn⟩)⟩ c2
          | dir s' =>
            rw [reported_sub hl hr hln hrn] at h
            obtain ⟨ht, hs⟩ := (oneCommon_cons hl hr).1 ho
            have := ih (hl.find_dir hln) (hr.find_dir hrn) (noClash_sub hl hr hc hln hrn)
              (hs n s s' hln hrn) h
            unfold eventPaths
            rw [mem_andThen_ok rfl, ht]
            right
            simp only [Bool.false_eq_true, if_false]
            refine mem_subEventPaths_ok hl ?_ hln hrn this
            rw [subEventPaths_ok hl]
            intro m x x' hx hx'
            exact (eventPaths_err (hl.find_dir hx) (hr.find_dir hx')).2 (hs m x x' hx hx')

theorem zip_map_mem {α β : Type} (f : α → β) (l : List α) (x : β × α) (h : x ∈ (l.map f).zip l) :
    x.2 ∈ l ∧ x.1 = f x.2 := by
  induction l with
  | nil => simp at h
  | cons a l ih =>
    simp only [List.map_cons, List.zip_cons_cons, List.mem_cons] at h
    rcases h with rfl | h
    · exact ⟨by simp, rfl⟩
    · obtain ⟨h1, h2⟩ := ih h
      exact ⟨by simp [h1], h2⟩

/-- C59: whatever the trees are, the events that are yielded are right and come once each, where a
file counts as the same if its content or its size and modification time are the same. -/
theorem C59_sound (l r : Forest) (hl : l.Ok) (hr : r.Ok) :
    ∃ ps : List (Event × List Str), (compareDirs l r).1.length = ps.length ∧
      (∀ x ∈ (compareDirs l r).1.zip ps, x.1.1 = x.2.1 ∧ Denotes x.1.2 x.2.2) ∧
      (ps.map Prod.snd).Nodup ∧ ∀ ev p, (ev, p) ∈ ps → Reporting Shallow l r ev p := by
  refine ⟨(eventPaths l r).1, ?_, ?_, eventPaths_once hl hr, fun ev p h => eventPaths_sound hl hr h⟩
  · rw [compareDirs_text hl hr]
    simp [toText]
  · intro x hx
    rw [compareDirs_text hl hr] at hx
    obtain ⟨_, h⟩ := zip_map_mem _ _ _ hx
    rw [h]
    exact eventText_denotes x.2

/-- C59, a finding: the comparison ends with a `TypeError` exactly if some directory of both trees
has two or more subdirectories in common. -/
theorem C59_subdirs (l r : Forest) (hl : l.Ok) (hr : r.Ok) :
    ((compareDirs l r).2 = none ↔ OneCommon l r) ∧
      ((compareDirs l r).2 = none ∨ (compareDirs l r).2 = some .typeError) := by
  rw [compareDirs_text hl hr]
  refine ⟨eventPaths_err hl hr, ?_⟩
  show (eventPaths l r).2 = none ∨ (eventPaths l r).2 = some .typeError
  cases h : (eventPaths l r).2 with
  | none => exact .inl rfl
  | some e => rw [eventPaths_typeError l r e h]; exact .inr rfl

/-- C59 for trees in which no name is a file on one side and a directory on the other, with at most
one common subdirectory in each directory, and where the contents of files of the same size
and time are the same. Missing: all other trees (`C59_subdirs`, `C59_clash`, `C59_shallow`). -/
theorem C59_partial (l r : Forest) (hl : l.Ok) (hr : r.Ok) (hc : NoClash l r) (ho : OneCommon l r)
    (hs : ∀ p b c t, FileAt l p b t → FileAt r p c t → b.length = c.length → b = c) :
    ∃ evs ps, compareDirs l r = (evs, none) ∧ Reports SameContent l r evs ps := by
  have hrep : ∀ ev p, Reporting Shallow l r ev p ↔ Reporting SameContent l r ev p := by
    intro ev p
    have heq : ∀ b t c u, FileAt l p b t → FileAt r p c u → (Shallow b t c u ↔ SameContent b t c u) := by
      intro b t c u h1 h2
      constructor
      · rintro (h | ⟨h, rfl⟩)
        · exact h
        · exact hs p b c t h1 h2 h
      · exact .inl
    cases ev with
    | left => exact Iff.rfl
    | right => exact Iff.rfl
    | same =>
      constructor <;>
      · rintro ⟨b, t, c, u, h1, h2, h3⟩
        have := heq b t c u h1 h2
        exact ⟨b, t, c, u, h1, h2, by first | exact this.1 h3 | exact this.2 h3⟩
    | diff =>
      constructor <;>
      · rintro ⟨b, t, c, u, h1, h2, h3⟩
        have := heq b t c u h1 h2
        exact ⟨b, t, c, u, h1, h2, by
          first | exact (not_congr this).1 h3 | exact (not_congr this).2 h3⟩
  refine ⟨_, (eventPaths l r).1, Prod.ext rfl ((C59_subdirs l r hl hr).1.2 ho), ⟨?_, ?_⟩,
    eventPaths_once hl hr, ?_⟩
  · rw [compareDirs_text hl hr]
    simp [toText]
  · intro x hx
    rw [compareDirs_text hl hr] at hx
    obtain ⟨_, h⟩ := zip_map_mem _ _ _ hx
    rw [h]
    exact eventText_denotes x.2
  · intro ev p
    rw [← hrep]
    exact ⟨eventPaths_sound hl hr, eventPaths_complete hl hr hc ho⟩

/-- Nothing is said about a name that is a file here and a directory there. -/
theorem eventPaths_clash (l r : Forest) (hl : l.Ok) (hr : r.Ok) (n : Str) (b : Bytes) (t : Int) (s : Forest)
    (h1 : l.find n = some (.file b t)) (h2 : r.find n = some (.dir s)) :
    ∀ ev p, (ev, p) ∈ (eventPaths l r).1 → p.head? ≠ some n := by
  intro ev p h hp
  cases p with
  | nil => simp at hp
  | cons m q =>
    obtain rfl : m = n := by simpa using hp
    rcases mem_andThen h with h | ⟨_, h⟩
    · have h := (mem_levelPaths hl hr).1 h
      cases ev with
      | left =>
        obtain ⟨k, q', e, h3, _⟩ := h
        rw [← (List.cons.inj e).1] at h3
        exact h3 (find_mem_names h2)
      | right =>
        obtain ⟨k, q', e, h3, _⟩ := h
        rw [← (List.cons.inj e).1] at h3
        exact h3 (find_mem_names h1)
      | same =>
        obtain ⟨k, _, _, _, _, e, _, h3, _⟩ := h
        rw [← (List.cons.inj e).1, h2] at h3
        simp at h3
      | diff =>
        obtain ⟨k, _, _, _, _, e, _, h3, _⟩ := h
        rw [← (List.cons.inj e).1, h2] at h3
        simp at h3
    · split at h
      · simp at h
      · obtain ⟨k, q', s₁, s₂, e, h3, _⟩ := mem_subEventPaths hl h
        rw [← (List.cons.inj e).1, h1] at h3
        simp at h3

theorem fileAt_names {F : Forest} (hF : F.Ok) {p : List Str} {b : Bytes} {t : Int}
    (h : FileAt F p b t) : ∀ n ∈ p, IsName n := by
  induction h with
  | here n b t nx => intro m hm; rw [List.mem_singleton.1 hm]; exact hF.1
  | inside nx _ ih =>
    intro m hm
    rcases List.mem_cons.1 hm with rfl | hm
    · exact hF.1
    · exact ih hF.2.2.1 m hm
  | afterFile _ _ _ _ ih => exact ih hF.2.2
  | afterDir _ _ _ ih => exact ih hF.2.2.2

theorem slash_mem_slashed {n m : Str} {ns : List Str} : '/' ∈ slashed (n :: m :: ns) := by
  simp [slashed]

/-- Different paths have different texts. -/
theorem denotes_single {n : Str} (hn : IsName n) {s : Str} {p : List Str} (hp : p ≠ [])
    (hpn : ∀ m ∈ p, IsName m) (h : Denotes s p) (h' : Denotes s [n]) : p = [n] := by
  have hsl : ∀ q : List Str, q ≠ [] → (∀ m ∈ q, IsName m) → slashed q = n → q = [n] := by
    intro q hq hqn he
    match q with
    | [] => exact absurd rfl hq
    | [m] => rw [show m = n from he]
    | m :: k :: ks => exact absurd (by rw [← he]; exact slash_mem_slashed) hn.2.1
  have hdot : ∀ q : List Str, q ≠ [] → (∀ m ∈ q, IsName m) → slashed q ≠ "./".toList ++ n := by
    intro q hq hqn he
    match q with
    | [] => exact hq rfl
    | [m] => exact (hqn m (by simp)).2.1 (by rw [show m = "./".toList ++ n from he]; simp)
    | m :: k :: ks =>
      have hm := hqn m (by simp)
      simp only [slashed] at he
      match m, hm with
      | [], hm => exact hm.1 rfl
      | [c], hm =>
        simp at he
        exact hm.2.2.1 (by rw [he.1])
      | c :: d :: cs, hm =>
        simp at he
        exact hm.2.1 (by simp [he.2.1])
  rcases h with h | h <;> rcases h' with h' | h'
  · exact hsl p hp hpn (h.symm.trans h')
  · exact absurd (h.symm.trans h') (hdot p hp hpn)
  · rw [h] at h'
    exact absurd (show '/' ∈ n by rw [show n = _ from h'.symm]; simp) hn.2.1
  · rw [h] at h'
    exact hsl p hp hpn (List.append_cancel_left h')

theorem reported_names {l r : Forest} (hl : l.Ok) (hr : r.Ok) {ev : Event} {p : List Str}
    (h : Reporting Shallow l r ev p) : p ≠ [] ∧ ∀ m ∈ p, IsName m := by
  cases ev with
  | left => obtain ⟨⟨b, t, h⟩, _⟩ := h; exact ⟨h.ne_nil, fileAt_names hl h⟩
  | right => obtain ⟨⟨b, t, h⟩, _⟩ := h; exact ⟨h.ne_nil, fileAt_names hr h⟩
  | same => obtain ⟨_, _, _, _, h, _⟩ := h; exact ⟨h.ne_nil, fileAt_names hl h⟩
  | diff => obtain ⟨_, _, _, _, h, _⟩ := h; exact ⟨h.ne_nil, fileAt_names hl h⟩

/-- C59, a finding: a file that is a directory on the other side is not reported. -/
theorem C59_clash (l r : Forest) (hl : l.Ok) (hr : r.Ok) (n : Str) (b : Bytes) (t : Int) (s : Forest)
    (h1 : l.find n = some (.file b t)) (h2 : r.find n = some (.dir s)) :
    ∀ x ∈ (compareDirs l r).1, ¬ Denotes x.2 [n] := by
  intro x hx hd
  rw [compareDirs_text hl hr] at hx
  obtain ⟨e, he, rfl⟩ := List.mem_map.1 hx
  obtain ⟨hne, hnames⟩ := reported_names hl hr (eventPaths_sound hl hr he)
  have := denotes_single (names_ok hl (find_mem_names h1)) hne hnames (eventText_denotes e).2 hd
  exact eventPaths_clash l r hl hr n b t s h1 h2 e.1 e.2 he (by rw [this]; rfl)

/-- C59, a finding: files with the same size and time count as the same whatever they contain. -/
theorem C59_shallow (n : Str) (hn : IsName n) (b c : Bytes) (t : Int) (h : b.length = c.length) :
    compareDirs (.file n b t .nil) (.file n c t .nil) = ([(.same, "./".toList ++ n)], none) := by
  have hl : (Forest.file n b t .nil).Ok := ⟨hn, by simp [Forest.names], trivial⟩
  have hr : (Forest.file n c t .nil).Ok := ⟨hn, by simp [Forest.names], trivial⟩
  rw [compareDirs_text hl hr]
  simp [eventPaths, levelPaths, tooMany, commonDirs, commonFiles, onlyNames, Forest.names, Forest.find,
    filesEqual, h, sortNames, insertName, andThen, toText, subEventPaths, eventText]

/-- C59 is false: two common subdirectories are enough. -/
theorem C59_full_fails : ¬ C59_full := by
  intro h
  let t : Forest := .dir "a".toList .nil (.dir "b".toList .nil .nil)
  have ht : t.Ok := by
    simp only [t, Forest.Ok, IsName, Forest.names]
    decide
  obtain ⟨evs, ps, h1, _⟩ := h t t ht ht
  have : compareDirs t t = ([], some .typeError) := by decide +kernel
  rw [this] at h1
  cases h1

example : compareDirs
    (.file "f".toList [1] 0 (.dir "d".toList (.file "x".toList [1, 2] 5 .nil) (.file "g".toList [3] 1 .nil)))
    (.file "f".toList [2] 1 (.dir "d".toList (.file "x".toList [1, 2] 6 (.file "y".toList [] 0 .nil)) .nil)) =
    ([(.left, "g".toList), (.diff, "./f".toList), (.right, "d/y".toList), (.same, "d/x".toList)], none) := by
  decide +kernel

/-- C59, `collect_compare`: the events by kind, or the exception that ended them. -/
theorem C59_collect (l r : Forest) :
    (∀ e, (compareDirs l r).2 = some e → collectDirs l r = .error e) ∧
    ((compareDirs l r).2 = none → ∃ g, collectDirs l r = .ok g ∧
      (∀ f, f ∈ g.1 ↔ (.right, f) ∈ (compareDirs l r).1) ∧
      (∀ f, f ∈ g.2.1 ↔ (.left, f) ∈ (compareDirs l r).1) ∧
      (∀ f, f ∈ g.2.2.1 ↔ (.diff, f) ∈ (compareDirs l r).1) ∧
      ∀ f, f ∈ g.2.2.2 ↔ (.same, f) ∈ (compareDirs l r).1) := by
  unfold collectDirs
  obtain ⟨evs, e⟩ := compareDirs l r
  have hmem : ∀ (ev : Event) (f : Str),
      f ∈ (evs.filter fun p => p.1 = ev).map Prod.snd ↔ (ev, f) ∈ evs := by
    intro ev f
    rw [List.mem_map]
    constructor
    · rintro ⟨⟨a, b⟩, h1, rfl⟩
      rw [List.mem_filter] at h1
      have : a = ev := by simpa using h1.2
      rw [← this]
      exact h1.1
    · intro h1
      exact ⟨(ev, f), by rw [List.mem_filter]; exact ⟨h1, by simp⟩, rfl⟩
  cases e with
  | some e => exact ⟨fun e' h => by rw [Option.some.inj h], fun h => by cases h⟩
  | none =>
    exact ⟨fun e h => (by cases h), fun _ =>
      ⟨_, rfl, fun f => hmem _ f, fun f => hmem _ f, fun f => hmem _ f, fun f => hmem _ f⟩⟩

end Javatools
