import Verif.Model.Dir
/-
Directory trees: what is where, and what a walk meets. For C59 and C60.
-/
namespace Javatools

/-! ### What is in a directory tree -/

/-- There is a file at this path. -/
inductive FileAt : Forest → List Str → Bytes → Int → Prop
  | here (n b t nx) : FileAt (.file n b t nx) [n] b t
  | inside {n s p b t} (nx) : FileAt s p b t → FileAt (.dir n s nx) (n :: p) b t
  | afterFile {nx p b t} (n b' t') : FileAt nx p b t → FileAt (.file n b' t' nx) p b t
  | afterDir {nx p b t} (n s) : FileAt nx p b t → FileAt (.dir n s nx) p b t

/-- There is a directory at this path. -/
inductive DirAt : Forest → List Str → Prop
  | here (n s nx) : DirAt (.dir n s nx) [n]
  | inside {n s p} (nx) : DirAt s p → DirAt (.dir n s nx) (n :: p)
  | afterFile {nx p} (n b' t') : DirAt nx p → DirAt (.file n b' t' nx) p
  | afterDir {nx p} (n s) : DirAt nx p → DirAt (.dir n s nx) p

/-- A file name: not empty, without a slash, and not `.` or `..`. -/
def IsName (n : Str) : Prop := n ≠ [] ∧ '/' ∉ n ∧ n ≠ ['.'] ∧ n ≠ ['.', '.']

/-- The names in every directory are distinct. -/
def Forest.Ok : Forest → Prop
  | .nil => True
  | .file n _ _ next => IsName n ∧ n ∉ next.names ∧ next.Ok
  | .dir n s next => IsName n ∧ n ∉ next.names ∧ s.Ok ∧ next.Ok

theorem FileAt.ne_nil {F p b t} (h : FileAt F p b t) : p ≠ [] := by
  induction h <;> simp_all

theorem DirAt.ne_nil {F p} (h : DirAt F p) : p ≠ [] := by
  induction h <;> simp_all

theorem find_mem_names {F : Forest} {n : Str} {it : Entry} (h : F.find n = some it) : n ∈ F.names := by
  induction F with
  | nil => simp [Forest.find] at h
  | file m b t nx ih =>
    simp only [Forest.find] at h
    split at h
    · rename_i he; simp [Forest.names, he]
    · simp [Forest.names, ih h]
  | dir m s nx _ ih =>
    simp only [Forest.find] at h
    split at h
    · rename_i he; simp [Forest.names, he]
    · simp [Forest.names, ih h]

theorem mem_names_find {F : Forest} {n : Str} (h : n ∈ F.names) : ∃ it, F.find n = some it := by
  induction F with
  | nil => simp [Forest.names] at h
  | file m b t nx ih =>
    simp only [Forest.names, List.mem_cons] at h
    simp only [Forest.find]
    by_cases he : m = n
    · rw [if_pos he]; exact ⟨_, rfl⟩
    · rw [if_neg he]; exact ih (h.resolve_left fun e => he e.symm)
  | dir m s nx _ ih =>
    simp only [Forest.names, List.mem_cons] at h
    simp only [Forest.find]
    by_cases he : m = n
    · rw [if_pos he]; exact ⟨_, rfl⟩
    · rw [if_neg he]; exact ih (h.resolve_left fun e => he e.symm)

theorem find_none_iff {F : Forest} {n : Str} : F.find n = none ↔ n ∉ F.names := by
  constructor
  · intro h hm
    obtain ⟨it, hi⟩ := mem_names_find hm
    rw [h] at hi
    cases hi
  · intro h
    cases hf : F.find n with
    | none => rfl
    | some it => exact absurd (find_mem_names hf) h

theorem FileAt.head_mem {F p b t} (h : FileAt F p b t) : ∃ n q, p = n :: q ∧ n ∈ F.names := by
  induction h with
  | here n b t nx => exact ⟨n, [], rfl, by simp [Forest.names]⟩
  | @inside n s p b t nx _ _ => exact ⟨n, p, rfl, by simp [Forest.names]⟩
  | afterFile n b' t' _ ih =>
    obtain ⟨m, q, h1, h2⟩ := ih
    exact ⟨m, q, h1, by simp [Forest.names, h2]⟩
  | afterDir n s _ ih =>
    obtain ⟨m, q, h1, h2⟩ := ih
    exact ⟨m, q, h1, by simp [Forest.names, h2]⟩

theorem DirAt.head_mem {F p} (h : DirAt F p) : ∃ n q, p = n :: q ∧ n ∈ F.names := by
  induction h with
  | here n s nx => exact ⟨n, [], rfl, by simp [Forest.names]⟩
  | @inside n s p nx _ _ => exact ⟨n, p, rfl, by simp [Forest.names]⟩
  | afterFile n b' t' _ ih =>
    obtain ⟨m, q, h1, h2⟩ := ih
    exact ⟨m, q, h1, by simp [Forest.names, h2]⟩
  | afterDir n s _ ih =>
    obtain ⟨m, q, h1, h2⟩ := ih
    exact ⟨m, q, h1, by simp [Forest.names, h2]⟩

theorem Forest.Ok.find_dir {F : Forest} (h : F.Ok) {n : Str} {s : Forest}
    (hf : F.find n = some (.dir s)) : s.Ok := by
  induction F with
  | nil => simp [Forest.find] at hf
  | file m b t nx ih =>
    simp only [Forest.find] at hf
    split at hf
    · simp at hf
    · exact ih h.2.2 hf
  | dir m s' nx _ ih =>
    simp only [Forest.find] at hf
    split at hf
    · obtain rfl : s' = s := by simpa using hf
      exact h.2.2.1
    · exact ih h.2.2.2 hf

/-- Files by the first name of the path. -/
theorem fileAt_cons {F : Forest} (hF : F.Ok) {n : Str} {p : List Str} {b : Bytes} {t : Int} :
    FileAt F (n :: p) b t ↔ (p = [] ∧ F.find n = some (.file b t)) ∨
      ∃ s, F.find n = some (.dir s) ∧ FileAt s p b t := by
  induction F with
  | nil => simp only [Forest.find, reduceCtorEq, and_false, false_and, exists_false, or_self, iff_false]; nofun
  | file m c u nx ih =>
    have ih := ih hF.2.2
    simp only [Forest.find]
    by_cases hm : m = n
    · subst hm
      simp only [if_true, Option.some.injEq, Entry.file.injEq, reduceCtorEq, false_and, exists_false,
        or_false]
      constructor
      · intro h
        cases h with
        | here => exact ⟨rfl, rfl, rfl⟩
        | afterFile _ _ _ h =>
          obtain ⟨k, q, h1, h2⟩ := h.head_mem
          cases h1
          exact absurd h2 hF.2.1
      · rintro ⟨rfl, rfl, rfl⟩
        exact .here _ _ _ _
    · simp only [if_neg hm]
      rw [← ih]
      constructor
      · intro h
        cases h with
        | here => exact absurd rfl hm
        | afterFile _ _ _ h => exact h
      · exact fun h => .afterFile _ _ _ h
  | dir m s nx _ ih =>
    have ih := ih hF.2.2.2
    simp only [Forest.find]
    by_cases hm : m = n
    · subst hm
      simp only [if_true, Option.some.injEq, reduceCtorEq, and_false, false_or, Entry.dir.injEq,
        exists_eq_left']
      constructor
      · intro h
        cases h with
        | inside _ h => exact h
        | afterDir _ _ h =>
          obtain ⟨k, q, h1, h2⟩ := h.head_mem
          cases h1
          exact absurd h2 hF.2.1
      · exact fun h => .inside _ h
    · simp only [if_neg hm]
      rw [← ih]
      constructor
      · intro h
        cases h with
        | inside => exact absurd rfl hm
        | afterDir _ _ h => exact h
      · exact fun h => .afterDir _ _ h

theorem dirAt_cons {F : Forest} (hF : F.Ok) {n : Str} {p : List Str} :
    DirAt F (n :: p) ↔ ∃ s, F.find n = some (.dir s) ∧ (p = [] ∨ DirAt s p) := by
  induction F with
  | nil => simp only [Forest.find, reduceCtorEq, false_and, exists_false, iff_false]; nofun
  | file m c u nx ih =>
    have ih := ih hF.2.2
    simp only [Forest.find]
    by_cases hm : m = n
    · subst hm
      simp only [if_true, Option.some.injEq, reduceCtorEq, false_and, exists_false, iff_false]
      intro h
      cases h with
      | afterFile _ _ _ h =>
        obtain ⟨k, q, h1, h2⟩ := h.head_mem
        cases h1
        exact absurd h2 hF.2.1
    · simp only [if_neg hm]
      rw [← ih]
      constructor
      · intro h
        cases h with
        | afterFile _ _ _ h => exact h
      · exact fun h => .afterFile _ _ _ h
  | dir m s nx _ ih =>
    have ih := ih hF.2.2.2
    simp only [Forest.find]
    by_cases hm : m = n
    · subst hm
      simp only [if_true, Option.some.injEq, Entry.dir.injEq, exists_eq_left']
      constructor
      · intro h
        cases h with
        | here => exact .inl rfl
        | inside _ h => exact .inr h
        | afterDir _ _ h =>
          obtain ⟨k, q, h1, h2⟩ := h.head_mem
          cases h1
          exact absurd h2 hF.2.1
      · rintro (rfl | h)
        · exact .here _ _ _
        · exact .inside _ h
    · simp only [if_neg hm]
      rw [← ih]
      constructor
      · intro h
        cases h with
        | here => exact absurd rfl hm
        | inside => exact absurd rfl hm
        | afterDir _ _ h => exact h
      · exact fun h => .afterDir _ _ h

theorem FileAt.unique {F : Forest} (hF : F.Ok) {p : List Str} {b c : Bytes} {t u : Int}
    (h1 : FileAt F p b t) (h2 : FileAt F p c u) : b = c ∧ t = u := by
  induction p generalizing F with
  | nil => exact absurd rfl h1.ne_nil
  | cons n p ih =>
    rw [fileAt_cons hF] at h1 h2
    rcases h1 with ⟨_, h1⟩ | ⟨s, h1, h1'⟩ <;> rcases h2 with ⟨_, h2⟩ | ⟨s', h2, h2'⟩
    · rw [h1] at h2
      simpa using h2
    · rw [h1] at h2; simp at h2
    · rw [h1] at h2; simp at h2
    · rw [h1] at h2
      obtain rfl : s = s' := by simpa using h2
      exact ih (hF.find_dir h1) h1' h2'

/-- No path is a file and a directory. -/
theorem FileAt.not_dirAt {F : Forest} (hF : F.Ok) {p : List Str} {b : Bytes} {t : Int}
    (h1 : FileAt F p b t) : ¬ DirAt F p := by
  intro h2
  induction p generalizing F with
  | nil => exact absurd rfl h1.ne_nil
  | cons n p ih =>
    rw [fileAt_cons hF] at h1
    rw [dirAt_cons hF] at h2
    obtain ⟨s', h2, h2'⟩ := h2
    rcases h1 with ⟨_, h1⟩ | ⟨s, h1, h1'⟩
    · rw [h1] at h2; simp at h2
    · rw [h1] at h2
      obtain rfl : s = s' := by simpa using h2
      rcases h2' with rfl | h2'
      · exact h1'.ne_nil rfl
      · exact ih (hF.find_dir h1) h1' h2'

/-! ### Sorting and walking -/

theorem insertName_perm (x : Str) (l : List Str) : (insertName x l).Perm (x :: l) := by
  induction l with
  | nil => exact .refl _
  | cons y l ih =>
    simp only [insertName]
    split
    · exact .refl _
    · exact (List.Perm.cons y ih).trans (.swap x y l)

theorem sortNames_perm (l : List Str) : (sortNames l).Perm l := by
  induction l with
  | nil => exact .refl _
  | cons x l ih => exact (insertName_perm x _).trans (ih.cons x)

theorem mem_sortNames {l : List Str} {x : Str} : x ∈ sortNames l ↔ x ∈ l := (sortNames_perm l).mem_iff

theorem Forest.Ok.nodup {F : Forest} (h : F.Ok) : F.names.Nodup := by
  induction F with
  | nil => exact List.nodup_nil
  | file n b t nx ih => exact List.nodup_cons.2 ⟨h.2.1, ih h.2.2⟩
  | dir n s nx _ ih => exact List.nodup_cons.2 ⟨h.2.1, ih h.2.2.2⟩

/-- The paths of the files that a walk meets. -/
def walkPaths (ws : List (List Str × List Str × List (Str × Bytes))) : List (List Str) :=
  ws.flatMap fun w => w.2.2.map fun g => w.1 ++ [g.1]

/-- The paths of all files, in the order of `os.walk`. -/
def Forest.paths (F : Forest) : List (List Str) := walkPaths (F.walk [])

def Forest.subPaths (F : Forest) : List (List Str) := walkPaths (F.walkSubs [])

theorem walkSubs_at (a b : List Str) (F : Forest) :
    F.walkSubs (a ++ b) = (F.walkSubs b).map fun w => (a ++ w.1, w.2) := by
  induction F generalizing b with
  | nil => rfl
  | file n c t nx ih => exact ih b
  | dir n s nx ihs ih =>
    simp only [Forest.walkSubs, List.map_cons, List.map_append]
    rw [← ih, List.append_assoc, ← ihs]

theorem walk_at (a : List Str) (F : Forest) :
    F.walk a = (F.walk []).map fun w => (a ++ w.1, w.2) := by
  have := walkSubs_at a [] F
  rw [List.append_nil] at this
  simp only [Forest.walk, this, List.map_cons, List.append_nil]

theorem walkPaths_map (a : List Str) (ws : List (List Str × List Str × List (Str × Bytes))) :
    walkPaths (ws.map fun w => (a ++ w.1, w.2)) = (walkPaths ws).map fun p => a ++ p := by
  induction ws with
  | nil => rfl
  | cons w ws ih =>
    simp only [walkPaths, List.map_cons, List.flatMap_cons, List.map_append] at ih ⊢
    rw [ih]
    simp [List.append_assoc, Function.comp_def]

theorem mem_files {F : Forest} (hF : F.Ok) {n : Str} {b : Bytes} :
    (n, b) ∈ F.files ↔ ∃ t, F.find n = some (.file b t) := by
  induction F with
  | nil => simp [Forest.files, Forest.find]
  | file m c u nx ih =>
    simp only [Forest.files, List.mem_cons, Prod.mk.injEq, ih hF.2.2, Forest.find]
    by_cases hm : m = n
    · subst hm
      rw [(find_none_iff).2 hF.2.1]
      simp only [if_true, true_and, reduceCtorEq, exists_false, or_false, Option.some.injEq,
        Entry.file.injEq]
      constructor
      · rintro rfl; exact ⟨u, rfl, rfl⟩
      · rintro ⟨_, rfl, _⟩; rfl
    · simp only [if_neg hm]
      constructor
      · rintro (⟨rfl, _⟩ | h)
        · exact absurd rfl hm
        · exact h
      · exact .inr
  | dir m s nx _ ih =>
    simp only [Forest.files, ih hF.2.2.2, Forest.find]
    by_cases hm : m = n
    · subst hm
      rw [(find_none_iff).2 hF.2.1]
      simp
    · simp only [if_neg hm]

theorem mem_dirNames {F : Forest} (hF : F.Ok) {n : Str} :
    n ∈ F.dirNames ↔ ∃ s, F.find n = some (.dir s) := by
  induction F with
  | nil => simp [Forest.dirNames, Forest.find]
  | file m c u nx ih =>
    simp only [Forest.dirNames, ih hF.2.2, Forest.find]
    by_cases hm : m = n
    · subst hm
      rw [(find_none_iff).2 hF.2.1]
      simp
    · simp only [if_neg hm]
  | dir m s nx _ ih =>
    simp only [Forest.dirNames, List.mem_cons, ih hF.2.2.2, Forest.find]
    by_cases hm : m = n
    · subst hm
      simp
    · simp only [if_neg hm]
      constructor
      · rintro (rfl | h)
        · exact absurd rfl hm
        · exact h
      · exact .inr

theorem paths_eq (F : Forest) :
    F.paths = (F.files.map fun g => [g.1]) ++ F.subPaths := by
  simp [Forest.paths, Forest.subPaths, Forest.walk, walkPaths]

theorem subPaths_dir (n : Str) (s nx : Forest) :
    (Forest.dir n s nx).subPaths = (s.paths.map fun p => n :: p) ++ nx.subPaths := by
  simp only [Forest.subPaths, Forest.walkSubs, Forest.paths]
  have : walkPaths (s.walk [n]) = (walkPaths (s.walk [])).map fun p => n :: p := by
    rw [walk_at, walkPaths_map]
    rfl
  rw [← this]
  simp [walkPaths, Forest.walk]

theorem mem_subPaths {F : Forest} (hF : F.Ok)
    (hall : ∀ n s, F.find n = some (.dir s) → ∀ p, p ∈ s.paths ↔ ∃ b t, FileAt s p b t)
    {p : List Str} :
    p ∈ F.subPaths ↔ ∃ n s q, p = n :: q ∧ F.find n = some (.dir s) ∧ ∃ b t, FileAt s q b t := by
  induction F with
  | nil => simp [Forest.subPaths, Forest.walkSubs, walkPaths, Forest.find]
  | file m c u nx ih =>
    have hfind : ∀ n s, (Forest.file m c u nx).find n = some (.dir s) ↔ nx.find n = some (.dir s) := by
      intro n s
      simp only [Forest.find]
      by_cases hm : m = n
      · subst hm
        rw [(find_none_iff).2 hF.2.1]
        simp
      · simp [hm]
    rw [show (Forest.file m c u nx).subPaths = nx.subPaths from rfl,
      ih hF.2.2 fun n s h => hall n s ((hfind n s).2 h)]
    simp only [hfind]
  | dir m s nx _ ih =>
    have hfind : ∀ n s', (Forest.dir m s nx).find n = some (.dir s') ↔
        (n = m ∧ s' = s) ∨ nx.find n = some (.dir s') := by
      intro n s'
      simp only [Forest.find]
      by_cases hm : m = n
      · subst hm
        rw [(find_none_iff).2 hF.2.1]
        simp [eq_comm]
      · simp [hm, eq_comm]
    rw [subPaths_dir, List.mem_append, ih hF.2.2.2 fun n s' h => hall n s' ((hfind n s').2 (.inr h)),
      List.mem_map]
    simp only [hfind]
    constructor
    · rintro (⟨q, hq, rfl⟩ | ⟨n, s', q, h1, h2, h3⟩)
      · exact ⟨m, s, q, rfl, .inl ⟨rfl, rfl⟩, (hall m s ((hfind m s).2 (.inl ⟨rfl, rfl⟩)) q).1 hq⟩
      · exact ⟨n, s', q, h1, .inr h2, h3⟩
    · rintro ⟨n, s', q, rfl, ⟨rfl, rfl⟩ | h2, h3⟩
      · exact .inl ⟨q, (hall n s' ((hfind n s').2 (.inl ⟨rfl, rfl⟩)) q).2 h3, rfl⟩
      · exact .inr ⟨n, s', q, rfl, h2, h3⟩

theorem Forest.sizeOf_find {F : Forest} {n : Str} {s : Forest} (h : F.find n = some (.dir s)) :
    sizeOf s < sizeOf F := by
  induction F with
  | nil => simp [Forest.find] at h
  | file m b t nx ih =>
    simp only [Forest.find] at h
    split at h
    · simp at h
    · have := ih h
      simp only [Forest.file.sizeOf_spec]
      omega
  | dir m s' nx _ ih =>
    simp only [Forest.find] at h
    split at h
    · obtain rfl : s' = s := by simpa using h
      simp only [Forest.dir.sizeOf_spec]
      omega
    · have := ih h
      simp only [Forest.dir.sizeOf_spec]
      omega

/-- A walk meets exactly the files of the tree. -/
theorem mem_paths {F : Forest} (hF : F.Ok) {p : List Str} :
    p ∈ F.paths ↔ ∃ b t, FileAt F p b t := by
  suffices ∀ (k : Nat) (F : Forest), sizeOf F ≤ k → F.Ok → ∀ p, p ∈ F.paths ↔ ∃ b t, FileAt F p b t from
    this _ F (Nat.le_refl _) hF p
  intro k
  induction k with
  | zero => intro F h; cases F <;> simp at h <;> omega
  | succ k ih =>
    intro F hk hF p
    rw [paths_eq, List.mem_append, mem_subPaths hF fun n s h q =>
      ih s (by have := Forest.sizeOf_find h; omega) (hF.find_dir h) q]
    constructor
    · rintro (h | ⟨n, s, q, rfl, h1, b, t, h2⟩)
      · obtain ⟨⟨n, b⟩, h1, rfl⟩ := List.mem_map.1 h
        obtain ⟨t, h2⟩ := (mem_files hF).1 h1
        exact ⟨b, t, (fileAt_cons hF).2 (.inl ⟨rfl, h2⟩)⟩
      · exact ⟨b, t, (fileAt_cons hF).2 (.inr ⟨s, h1, h2⟩)⟩
    · rintro ⟨b, t, h⟩
      obtain ⟨n, q, rfl, _⟩ := h.head_mem
      rcases (fileAt_cons hF).1 h with ⟨rfl, h1⟩ | ⟨s, h1, h2⟩
      · exact .inl (List.mem_map.2 ⟨(n, b), (mem_files hF).2 ⟨t, h1⟩, rfl⟩)
      · exact .inr ⟨n, s, q, rfl, h1, b, t, h2⟩

theorem files_sublist (F : Forest) : (F.files.map Prod.fst).Sublist F.names := by
  induction F with
  | nil => exact .refl _
  | file n b t nx ih => exact ih.cons₂ n
  | dir n s nx _ ih => exact ih.cons n

theorem subPaths_head {F : Forest} {p : List Str} (h : p ∈ F.subPaths) :
    ∃ n q, p = n :: q ∧ q ≠ [] ∧ n ∈ F.names := by
  induction F generalizing p with
  | nil => simp [Forest.subPaths, Forest.walkSubs, walkPaths] at h
  | file m c u nx ih =>
    obtain ⟨n, q, h1, h2, h3⟩ := ih h
    exact ⟨n, q, h1, h2, by simp [Forest.names, h3]⟩
  | dir m s nx ihs ih =>
    rw [subPaths_dir, List.mem_append, List.mem_map] at h
    rcases h with ⟨q, hq, rfl⟩ | h
    · refine ⟨m, q, rfl, ?_, by simp [Forest.names]⟩
      rw [paths_eq, List.mem_append, List.mem_map] at hq
      rcases hq with ⟨g, _, rfl⟩ | hq
      · simp
      · obtain ⟨n, q', rfl, _⟩ := ihs hq
        simp
    · obtain ⟨n, q, h1, h2, h3⟩ := ih h
      exact ⟨n, q, h1, h2, by simp [Forest.names, h3]⟩

theorem nodup_map_inj {α β : Type} {f : α → β} (hf : ∀ x y, f x = f y → x = y) {l : List α}
    (h : l.Nodup) : (l.map f).Nodup := by
  induction l with
  | nil => exact List.nodup_nil
  | cons a l ih =>
    rw [List.nodup_cons] at h
    rw [List.map_cons, List.nodup_cons]
    refine ⟨fun hm => ?_, ih h.2⟩
    obtain ⟨b, hb, hab⟩ := List.mem_map.1 hm
    rw [hf _ _ hab] at hb
    exact h.1 hb

/-- A walk meets every file once. -/
theorem paths_nodup {F : Forest} (hF : F.Ok) : F.paths.Nodup ∧ F.subPaths.Nodup := by
  have key : ∀ F : Forest, F.Ok → F.subPaths.Nodup → F.paths.Nodup := by
    intro F hF h
    rw [paths_eq, List.nodup_append]
    refine ⟨?_, h, ?_⟩
    · have : (F.files.map fun g => [g.1]) = (F.files.map Prod.fst).map fun n => [n] := by
        simp [Function.comp_def]
      rw [this]
      exact nodup_map_inj (by simp) (hF.nodup.sublist (files_sublist F))
    · intro a ha b hb hab
      subst hab
      obtain ⟨g, _, rfl⟩ := List.mem_map.1 ha
      obtain ⟨n, q, h1, h2, _⟩ := subPaths_head hb
      simp only [List.cons.injEq] at h1
      exact h2 h1.2.symm
  refine ⟨key F hF ?_, ?_⟩ <;>
  · induction F with
    | nil => exact List.nodup_nil
    | file m c u nx ih => exact ih hF.2.2
    | dir m s nx ihs ih =>
      rw [subPaths_dir, List.nodup_append]
      refine ⟨nodup_map_inj (by simp) (key s hF.2.2.1 (ihs hF.2.2.1)), ih hF.2.2.2, ?_⟩
      intro a ha b hb hab
      subst hab
      obtain ⟨q, _, rfl⟩ := List.mem_map.1 ha
      obtain ⟨n, q', h1, _, h3⟩ := subPaths_head hb
      rw [(List.cons.inj h1).1] at hF
      exact hF.2.1 h3

end Javatools
