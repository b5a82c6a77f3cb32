import Verif.Model.ZipAccess
import Verif.Props.DistDiff
import Verif.Props.ClassInfoCli
import Verif.Props.Zip
/-
C125, C126: directories as archives.
-/
namespace Javatools

namespace FsTree

/-! ### Specification -/

/-- The regular file at this path, through directories only, has this content. -/
def FileIn : FsTree → List Str → Bytes → Prop
  | nil, _, _ => False
  | file n c next, p, b => (p = [n] ∧ b = c) ∨ next.FileIn p b
  | dir n s next, p, b => (∃ q, p = n :: q ∧ s.FileIn q b) ∨ next.FileIn p b
  | linkFile _ _ next, p, b => next.FileIn p b
  | linkDir _ _ next, p, b => next.FileIn p b
  | dangling _ next, p, b => next.FileIn p b
  | special _ next, p, b => next.FileIn p b

/-- There is a directory at this path, through directories only. -/
def DirIn : FsTree → List Str → Prop
  | nil, _ => False
  | file _ _ next, p => next.DirIn p
  | dir n s next, p => p = [n] ∨ (∃ q, p = n :: q ∧ s.DirIn q) ∨ next.DirIn p
  | linkFile _ _ next, p => next.DirIn p
  | linkDir _ _ next, p => next.DirIn p
  | dangling _ next, p => next.DirIn p
  | special _ next, p => next.DirIn p

/-- A file with this content is found at this path, perhaps through links. -/
def Reaches : FsTree → List Str → Bytes → Prop
  | nil, _, _ => False
  | file n c next, p, b => (p = [n] ∧ b = c) ∨ next.Reaches p b
  | dir n s next, p, b => (∃ q, p = n :: q ∧ s.Reaches q b) ∨ next.Reaches p b
  | linkFile n c next, p, b => (p = [n] ∧ b = c) ∨ next.Reaches p b
  | linkDir n s next, p, b => (∃ q, p = n :: q ∧ s.Reaches q b) ∨ next.Reaches p b
  | dangling _ next, p, b => next.Reaches p b
  | special _ next, p, b => next.Reaches p b

def names : FsTree → List Str
  | nil => []
  | file n _ next => n :: next.names
  | dir n _ next => n :: next.names
  | linkFile n _ next => n :: next.names
  | linkDir n _ next => n :: next.names
  | dangling n next => n :: next.names
  | special n next => n :: next.names

/-- The names are names, and differ within a directory. -/
def Ok : FsTree → Prop
  | nil => True
  | file n _ next => IsName n ∧ n ∉ next.names ∧ next.Ok
  | dir n s next => IsName n ∧ n ∉ next.names ∧ s.Ok ∧ next.Ok
  | linkFile n _ next => IsName n ∧ n ∉ next.names ∧ next.Ok
  | linkDir n s next => IsName n ∧ n ∉ next.names ∧ s.Ok ∧ next.Ok
  | dangling n next => IsName n ∧ n ∉ next.names ∧ next.Ok
  | special n next => IsName n ∧ n ∉ next.names ∧ next.Ok

/-- No symbolic links. -/
def NoLinks : FsTree → Prop
  | nil => True
  | file _ _ next => next.NoLinks
  | dir _ s next => s.NoLinks ∧ next.NoLinks
  | linkFile _ _ _ => False
  | linkDir _ _ _ => False
  | dangling _ _ => False
  | special _ next => next.NoLinks

/-- The number of regular files. -/
def fileCount : FsTree → Nat
  | nil => 0
  | file _ _ next => next.fileCount + 1
  | dir _ s next => s.fileCount + next.fileCount
  | linkFile _ _ next => next.fileCount
  | linkDir _ _ next => next.fileCount
  | dangling _ next => next.fileCount
  | special _ next => next.fileCount

/-- The number of directories. -/
def dirCount : FsTree → Nat
  | nil => 0
  | file _ _ next => next.dirCount
  | dir _ s next => s.dirCount + next.dirCount + 1
  | linkFile _ _ next => next.dirCount
  | linkDir _ _ next => next.dirCount
  | dangling _ next => next.dirCount
  | special _ next => next.dirCount

/-- The bytes of the regular files. -/
def byteCount : FsTree → Nat
  | nil => 0
  | file _ b next => next.byteCount + b.length
  | dir _ s next => s.byteCount + next.byteCount
  | linkFile _ _ next => next.byteCount
  | linkDir _ _ next => next.byteCount
  | dangling _ next => next.byteCount
  | special _ next => next.byteCount

/-! ### The entries -/

theorem mem_infos (t : FsTree) (at_ : List Str) (e : ZEntry) :
    e ∈ t.fileInfos at_ ++ t.subInfos at_ ↔
      (∃ p b, t.FileIn p b ∧ e = fileInfo (at_ ++ p) b) ∨ ∃ p, t.DirIn p ∧ e = dirInfo (at_ ++ p) := by
  induction t generalizing at_ with
  | nil => simp [fileInfos, subInfos, FileIn, DirIn]
  | file n c next ih =>
    have : e ∈ (file n c next).fileInfos at_ ++ (file n c next).subInfos at_ ↔
        e = fileInfo (at_ ++ [n]) c ∨ e ∈ next.fileInfos at_ ++ next.subInfos at_ := by
      simp [fileInfos, subInfos]
    rw [this, ih]
    simp only [FileIn, DirIn]
    constructor
    · rintro (h | ⟨p, b, h, h'⟩ | h)
      · exact .inl ⟨[n], c, .inl ⟨rfl, rfl⟩, h⟩
      · exact .inl ⟨p, b, .inr h, h'⟩
      · exact .inr h
    · rintro (⟨p, b, ⟨rfl, rfl⟩ | h, h'⟩ | h)
      · exact .inl h'
      · exact .inr (.inl ⟨p, b, h, h'⟩)
      · exact .inr (.inr h)
  | dir n s next ihs ih =>
    have : e ∈ (dir n s next).fileInfos at_ ++ (dir n s next).subInfos at_ ↔
        e = dirInfo (at_ ++ [n]) ∨ e ∈ s.fileInfos (at_ ++ [n]) ++ s.subInfos (at_ ++ [n]) ∨
          e ∈ next.fileInfos at_ ++ next.subInfos at_ := by
      simp only [fileInfos, subInfos, List.mem_append, List.mem_cons]
      grind
    rw [this, ih, ihs]
    simp only [FileIn, DirIn, List.append_assoc, List.singleton_append]
    constructor
    · rintro (h | (⟨p, b, h, h'⟩ | ⟨p, h, h'⟩) | ⟨p, b, h, h'⟩ | ⟨p, h, h'⟩)
      · exact .inr ⟨[n], .inl rfl, h⟩
      · exact .inl ⟨n :: p, b, .inl ⟨p, rfl, h⟩, h'⟩
      · exact .inr ⟨n :: p, .inr (.inl ⟨p, rfl, h⟩), h'⟩
      · exact .inl ⟨p, b, .inr h, h'⟩
      · exact .inr ⟨p, .inr (.inr h), h'⟩
    · rintro (⟨p, b, ⟨q, rfl, h⟩ | h, h'⟩ | ⟨p, rfl | ⟨q, rfl, h⟩ | h, h'⟩)
      · exact .inr (.inl (.inl ⟨q, b, h, h'⟩))
      · exact .inr (.inr (.inl ⟨p, b, h, h'⟩))
      · exact .inl h'
      · exact .inr (.inl (.inr ⟨q, h, h'⟩))
      · exact .inr (.inr (.inr ⟨p, h, h'⟩))
  | linkFile n c next ih => exact ih at_
  | linkDir n s next _ ih => exact ih at_
  | dangling n next ih => exact ih at_
  | special n next ih => exact ih at_

theorem FileIn.path {t : FsTree} {p : List Str} {b : Bytes} (h : t.FileIn p b) :
    ∃ n q, p = n :: q ∧ n ∈ t.names := by
  induction t with
  | nil => exact h.elim
  | file n c next ih =>
    rcases h with ⟨rfl, _⟩ | h
    · exact ⟨n, [], rfl, by simp [names]⟩
    · obtain ⟨m, q, h1, h2⟩ := ih h
      exact ⟨m, q, h1, by simp [names, h2]⟩
  | dir n s next _ ih =>
    rcases h with ⟨q, rfl, _⟩ | h
    · exact ⟨n, q, rfl, by simp [names]⟩
    · obtain ⟨m, q, h1, h2⟩ := ih h
      exact ⟨m, q, h1, by simp [names, h2]⟩
  | linkFile n c next ih => obtain ⟨m, q, h1, h2⟩ := ih h; exact ⟨m, q, h1, by simp [names, h2]⟩
  | linkDir n s next _ ih => obtain ⟨m, q, h1, h2⟩ := ih h; exact ⟨m, q, h1, by simp [names, h2]⟩
  | dangling n next ih => obtain ⟨m, q, h1, h2⟩ := ih h; exact ⟨m, q, h1, by simp [names, h2]⟩
  | special n next ih => obtain ⟨m, q, h1, h2⟩ := ih h; exact ⟨m, q, h1, by simp [names, h2]⟩

theorem DirIn.path {t : FsTree} {p : List Str} (h : t.DirIn p) :
    ∃ n q, p = n :: q ∧ n ∈ t.names := by
  induction t with
  | nil => exact h.elim
  | file n c next ih => obtain ⟨m, q, h1, h2⟩ := ih h; exact ⟨m, q, h1, by simp [names, h2]⟩
  | dir n s next _ ih =>
    rcases h with rfl | ⟨q, rfl, _⟩ | h
    · exact ⟨n, [], rfl, by simp [names]⟩
    · exact ⟨n, q, rfl, by simp [names]⟩
    · obtain ⟨m, q, h1, h2⟩ := ih h
      exact ⟨m, q, h1, by simp [names, h2]⟩
  | linkFile n c next ih => obtain ⟨m, q, h1, h2⟩ := ih h; exact ⟨m, q, h1, by simp [names, h2]⟩
  | linkDir n s next _ ih => obtain ⟨m, q, h1, h2⟩ := ih h; exact ⟨m, q, h1, by simp [names, h2]⟩
  | dangling n next ih => obtain ⟨m, q, h1, h2⟩ := ih h; exact ⟨m, q, h1, by simp [names, h2]⟩
  | special n next ih => obtain ⟨m, q, h1, h2⟩ := ih h; exact ⟨m, q, h1, by simp [names, h2]⟩

theorem FileIn.isNames {t : FsTree} {p : List Str} {b : Bytes} (ht : t.Ok) (h : t.FileIn p b) :
    ∀ n ∈ p, IsName n := by
  induction t generalizing p with
  | nil => exact h.elim
  | file n c next ih =>
    rcases h with ⟨rfl, _⟩ | h
    · intro m hm; rw [List.mem_singleton.1 hm]; exact ht.1
    · exact ih ht.2.2 h
  | dir n s next ihs ih =>
    rcases h with ⟨q, rfl, h⟩ | h
    · intro m hm
      rcases List.mem_cons.1 hm with rfl | hm
      · exact ht.1
      · exact ihs ht.2.2.1 h m hm
    · exact ih ht.2.2.2 h
  | linkFile n c next ih => exact ih ht.2.2 h
  | linkDir n s next _ ih => exact ih ht.2.2.2 h
  | dangling n next ih => exact ih ht.2.2 h
  | special n next ih => exact ih ht.2.2 h

theorem DirIn.isNames {t : FsTree} {p : List Str} (ht : t.Ok) (h : t.DirIn p) :
    ∀ n ∈ p, IsName n := by
  induction t generalizing p with
  | nil => exact h.elim
  | file n c next ih => exact ih ht.2.2 h
  | dir n s next ihs ih =>
    rcases h with rfl | ⟨q, rfl, h⟩ | h
    · intro m hm; rw [List.mem_singleton.1 hm]; exact ht.1
    · intro m hm
      rcases List.mem_cons.1 hm with rfl | hm
      · exact ht.1
      · exact ihs ht.2.2.1 h m hm
    · exact ih ht.2.2.2 h
  | linkFile n c next ih => exact ih ht.2.2 h
  | linkDir n s next _ ih => exact ih ht.2.2.2 h
  | dangling n next ih => exact ih ht.2.2 h
  | special n next ih => exact ih ht.2.2 h

theorem fileInfo_name {p : List Str} {b : Bytes} (hp : p ≠ []) : (fileInfo p b).name = slashed p := by
  simp [fileInfo, relText, hp]

theorem dirInfo_name {p : List Str} (hp : p ≠ []) (hn : ∀ n ∈ p, IsName n) :
    (dirInfo p).name = slashed p ++ ['/'] := by
  obtain ⟨h1, h2⟩ := slashed_last hp hn
  simp [dirInfo, relText, hp, pathJoin, h1, h2]

theorem slashed_inj {p q : List Str} (hp : p ≠ []) (hq : q ≠ []) (hpn : ∀ n ∈ p, IsName n)
    (hqn : ∀ n ∈ q, IsName n) (h : slashed p = slashed q) : p = q := by
  rw [← splitAll_slashed hp hpn, ← splitAll_slashed hq hqn, h]

theorem slashed_ne_dir {p q : List Str} (hp : p ≠ []) (hpn : ∀ n ∈ p, IsName n) :
    slashed p ≠ slashed q ++ ['/'] := by
  intro h
  exact (slashed_last hp hpn).2 (by rw [h]; simp)

/-- An entry below `at_`, in the part that belongs to the name `n`. -/
def Belongs (at_ : List Str) (n : Str) (e : ZEntry) : Prop :=
  ∃ q, (∀ m ∈ at_ ++ n :: q, IsName m) ∧
    (e.name = slashed (at_ ++ n :: q) ∨ e.name = slashed (at_ ++ n :: q) ++ ['/'])

theorem Belongs.ne {at_ : List Str} {n m : Str} {e f : ZEntry} (he : Belongs at_ n e)
    (hf : Belongs at_ m f) (h : n ≠ m) : e.name ≠ f.name := by
  obtain ⟨q, hq, he⟩ := he
  obtain ⟨r, hr, hf⟩ := hf
  have key : slashed (at_ ++ n :: q) ≠ slashed (at_ ++ m :: r) := by
    intro hs
    have := slashed_inj (by simp) (by simp) hq hr hs
    simp at this
    exact h this.1
  rcases he with he | he <;> rcases hf with hf | hf <;> rw [he, hf]
  · exact key
  · exact slashed_ne_dir (by simp) hq
  · exact fun h => slashed_ne_dir (by simp) hr h.symm
  · exact fun h => key (List.append_cancel_right h)

theorem belongs_of_mem {t : FsTree} (ht : t.Ok) {at_ : List Str} (ha : ∀ m ∈ at_, IsName m)
    {e : ZEntry} (he : e ∈ t.fileInfos at_ ++ t.subInfos at_) : ∃ n ∈ t.names, Belongs at_ n e := by
  rcases (mem_infos t at_ e).1 he with ⟨p, b, h, rfl⟩ | ⟨p, h, rfl⟩
  · obtain ⟨n, q, rfl, hn⟩ := h.path
    refine ⟨n, hn, q, ?_, .inl (fileInfo_name (by simp))⟩
    intro m hm
    rcases List.mem_append.1 hm with hm | hm
    · exact ha m hm
    · exact h.isNames ht m hm
  · obtain ⟨n, q, rfl, hn⟩ := h.path
    have hall : ∀ m ∈ at_ ++ n :: q, IsName m := by
      intro m hm
      rcases List.mem_append.1 hm with hm | hm
      · exact ha m hm
      · exact h.isNames ht m hm
    exact ⟨n, hn, q, hall, .inr (dirInfo_name (by simp) hall)⟩

theorem infos_nodup (t : FsTree) (ht : t.Ok) (at_ : List Str) (ha : ∀ m ∈ at_, IsName m) :
    ((t.fileInfos at_ ++ t.subInfos at_).map ZEntry.name).Nodup := by
  induction t generalizing at_ with
  | nil => simp [fileInfos, subInfos]
  | file n c next ih =>
    have : (file n c next).fileInfos at_ ++ (file n c next).subInfos at_ =
        fileInfo (at_ ++ [n]) c :: (next.fileInfos at_ ++ next.subInfos at_) := rfl
    rw [this, List.map_cons, List.nodup_cons]
    refine ⟨?_, ih ht.2.2 at_ ha⟩
    intro hm
    obtain ⟨e, he, h⟩ := List.mem_map.1 hm
    obtain ⟨m, hmn, hb⟩ := belongs_of_mem ht.2.2 ha he
    have hself : Belongs at_ n (fileInfo (at_ ++ [n]) c) := by
      refine ⟨[], ?_, .inl (fileInfo_name (by simp))⟩
      intro x hx
      rcases List.mem_append.1 hx with hx | hx
      · exact ha x hx
      · rw [List.mem_singleton.1 hx]; exact ht.1
    exact Belongs.ne hb hself (fun h => ht.2.1 (h ▸ hmn)) h
  | dir n s next ihs ih =>
    have ha' : ∀ m ∈ at_ ++ [n], IsName m := by
      intro x hx
      rcases List.mem_append.1 hx with hx | hx
      · exact ha x hx
      · rw [List.mem_singleton.1 hx]; exact ht.1
    have hp : ((dir n s next).fileInfos at_ ++ (dir n s next).subInfos at_).Perm
        (dirInfo (at_ ++ [n]) :: (s.fileInfos (at_ ++ [n]) ++ s.subInfos (at_ ++ [n])) ++
          (next.fileInfos at_ ++ next.subInfos at_)) := by
      simp only [fileInfos, subInfos]
      rw [← List.append_assoc, ← List.append_assoc]
      exact (List.perm_append_comm).append_right _
    refine ((hp.map ZEntry.name).nodup_iff).2 ?_
    rw [List.map_append, List.nodup_append]
    refine ⟨?_, ih ht.2.2.2 at_ ha, ?_⟩
    · rw [List.map_cons, List.nodup_cons]
      refine ⟨?_, ihs ht.2.2.1 _ ha'⟩
      intro hm
      obtain ⟨e, he, h⟩ := List.mem_map.1 hm
      obtain ⟨m, _, q, hq, hb⟩ := belongs_of_mem ht.2.2.1 ha' he
      rw [dirInfo_name (by simp) ha'] at h
      rcases hb with hb | hb
      · exact slashed_ne_dir (by simp) hq (hb.symm.trans h)
      · have := slashed_inj (by simp) (by simp) hq ha' (List.append_cancel_right (hb.symm.trans h))
        simp at this
    · intro x hx y hy
      obtain ⟨f, hf, rfl⟩ := List.mem_map.1 hy
      obtain ⟨m, hm, hb⟩ := belongs_of_mem ht.2.2.2 ha hf
      obtain ⟨e, he, rfl⟩ := List.mem_map.1 hx
      have hbe : Belongs at_ n e := by
        rcases List.mem_cons.1 he with rfl | he
        · exact ⟨[], ha', .inr (dirInfo_name (by simp) ha')⟩
        · obtain ⟨k, _, q, hq, hb⟩ := belongs_of_mem ht.2.2.1 ha' he
          refine ⟨k :: q, ?_, ?_⟩
          · simpa using hq
          · simpa using hb
      exact hbe.ne hb fun h => ht.2.1 (h ▸ hm)
  | linkFile n c next ih => exact ih ht.2.2 at_ ha
  | linkDir n s next _ ih => exact ih ht.2.2.2 at_ ha
  | dangling n next ih => exact ih ht.2.2 at_ ha
  | special n next ih => exact ih ht.2.2 at_ ha

end FsTree

open FsTree

theorem putInfo_new {e : ZEntry} {d : List ZEntry} (h : e.name ∉ d.map ZEntry.name) :
    putInfo e d = d ++ [e] := by
  induction d with
  | nil => rfl
  | cons x xs ih =>
    simp only [List.map_cons, List.mem_cons, not_or] at h
    rw [putInfo, if_neg (fun hx => h.1 hx.symm), ih h.2]
    rfl

theorem putInfo_all (es d : List ZEntry) (h : ((d ++ es).map ZEntry.name).Nodup) :
    es.foldl (fun d e => putInfo e d) d = d ++ es := by
  induction es generalizing d with
  | nil => simp
  | cons e es ih =>
    have h1 : e.name ∉ d.map ZEntry.name := by
      rw [List.map_append, List.nodup_append] at h
      intro hm
      exact h.2.2 _ hm _ (by simp) rfl
    rw [List.foldl_cons, putInfo_new h1, ih]
    · simp
    · simpa using h

/-- The members of a directory. -/
theorem new_members (t : FsTree) (above : List FsTree) (ht : t.Ok) :
    (Exploded.new t above).members = some t.collectInfos := by
  have h := putInfo_all t.collectInfos [] (infos_nodup t ht [] (by simp))
  rw [List.nil_append] at h
  simp [Exploded.new, Exploded.refresh, h]

theorem find_name {d : List ZEntry} (h : (d.map ZEntry.name).Nodup) {e : ZEntry} (he : e ∈ d) :
    d.find? (fun x => x.name = e.name) = some e := by
  induction d with
  | nil => simp at he
  | cons x xs ih =>
    rw [List.map_cons, List.nodup_cons] at h
    rcases List.mem_cons.1 he with rfl | he
    · simp
    · rw [List.find?_cons_of_neg, ih h.2 he]
      simp only [decide_eq_true_eq]
      intro hx
      exact h.1 (hx ▸ List.mem_map.2 ⟨e, he, rfl⟩)

/-! ### C125 -/

/-- C125. The names of the members are the paths of the regular files and, with a slash at the end,
of the directories: each once, sorted, and nothing else. -/
theorem C125_names (t : FsTree) (above : List FsTree) (ht : t.Ok) :
    ∃ l, (Exploded.new t above).namelist = .ok l ∧ l.Nodup ∧ l.Pairwise (· ≤ ·) ∧
      ∀ x, x ∈ l ↔ (∃ p b, t.FileIn p b ∧ x = slashed p) ∨ ∃ p, t.DirIn p ∧ x = slashed p ++ ['/'] := by
  refine ⟨sortNames (t.collectInfos.map ZEntry.name), by rw [Exploded.namelist, new_members t above ht],
    sortNames_nodup (infos_nodup t ht [] (by simp)), sortNames_sorted _, ?_⟩
  intro x
  rw [mem_sortNames, List.mem_map]
  constructor
  · rintro ⟨e, he, rfl⟩
    rcases (mem_infos t [] e).1 he with ⟨p, b, h, rfl⟩ | ⟨p, h, rfl⟩
    · obtain ⟨n, q, rfl, _⟩ := h.path
      exact .inl ⟨_, b, h, fileInfo_name (by simp)⟩
    · obtain ⟨n, q, rfl, _⟩ := h.path
      exact .inr ⟨_, h, dirInfo_name (by simp) (h.isNames ht)⟩
  · rintro (⟨p, b, h, rfl⟩ | ⟨p, h, rfl⟩)
    · refine ⟨fileInfo p b, (mem_infos t [] _).2 (.inl ⟨p, b, h, rfl⟩), fileInfo_name ?_⟩
      obtain ⟨n, q, rfl, _⟩ := h.path; simp
    · refine ⟨dirInfo p, (mem_infos t [] _).2 (.inr ⟨p, h, rfl⟩), dirInfo_name ?_ (h.isNames ht)⟩
      obtain ⟨n, q, rfl, _⟩ := h.path; simp

/-- C125. The record of a file has its name, its size twice, and its CRC. -/
theorem C125_file (t : FsTree) (above : List FsTree) (ht : t.Ok) (p : List Str) (b : Bytes)
    (h : t.FileIn p b) :
    ∃ e, (Exploded.new t above).getinfo (slashed p) = .ok (some e) ∧ e.name = slashed p ∧
      e.size = b.length ∧ e.csize = b.length ∧ e.crc = crc32 b 0 := by
  have hp : p ≠ [] := by obtain ⟨n, q, rfl, _⟩ := h.path; simp
  have hm : fileInfo p b ∈ t.collectInfos := (mem_infos t [] _).2 (.inl ⟨p, b, h, rfl⟩)
  have := find_name (d := t.collectInfos) (infos_nodup t ht [] (by simp)) hm
  rw [fileInfo_name hp] at this
  refine ⟨fileInfo p b, ?_, fileInfo_name hp, rfl, rfl, fileCrc32_default b⟩
  rw [Exploded.getinfo, new_members t above ht]
  exact congrArg Except.ok this

/-- C125. The record of a directory has no data. -/
theorem C125_dir (t : FsTree) (above : List FsTree) (ht : t.Ok) (p : List Str) (h : t.DirIn p) :
    ∃ e, (Exploded.new t above).getinfo (slashed p ++ ['/']) = .ok (some e) ∧
      e.name = slashed p ++ ['/'] ∧ e.size = 0 ∧ e.csize = 0 ∧ e.crc = 0 := by
  have hp : p ≠ [] := by obtain ⟨n, q, rfl, _⟩ := h.path; simp
  have hm : dirInfo p ∈ t.collectInfos := (mem_infos t [] _).2 (.inr ⟨p, h, rfl⟩)
  have := find_name (d := t.collectInfos) (infos_nodup t ht [] (by simp)) hm
  rw [dirInfo_name hp (h.isNames ht)] at this
  refine ⟨dirInfo p, ?_, dirInfo_name hp (h.isNames ht), rfl, rfl, rfl⟩
  rw [Exploded.getinfo, new_members t above ht]
  exact congrArg Except.ok this

/-- C125. Asking for anything else gives `None`, and does not raise as `ZipFile` does. -/
theorem C125_missing (t : FsTree) (above : List FsTree) (ht : t.Ok) (x : Str) :
    (Exploded.new t above).getinfo x = .ok none ↔
      ∀ l, (Exploded.new t above).namelist = .ok l → x ∉ l := by
  rw [Exploded.getinfo, Exploded.namelist, new_members t above ht]
  simp only [Except.ok.injEq, List.find?_eq_none, decide_eq_true_eq, forall_eq', mem_sortNames,
    List.mem_map, not_exists, not_and]

theorem rollup_append {a b : List ZEntry} {f d c u f' d' c' u' : Nat} (ha : rollup a = .ok (f, d, c, u))
    (hb : rollup b = .ok (f', d', c', u')) : rollup (a ++ b) = .ok (f + f', d + d', c + c', u + u') := by
  induction a generalizing f d c u with
  | nil =>
    simp only [rollup, Except.ok.injEq, Prod.mk.injEq] at ha
    obtain ⟨rfl, rfl, rfl, rfl⟩ := ha
    simpa using hb
  | cons e es ih =>
    rw [List.cons_append, rollup]
    rw [rollup] at ha
    cases hl : e.name.getLast? with
    | none => rw [hl] at ha; cases ha
    | some x =>
      rw [hl] at ha
      simp only at ha ⊢
      cases hr : rollup es with
      | error err => rw [hr] at ha; cases ha
      | ok y =>
        obtain ⟨f1, d1, c1, u1⟩ := y
        rw [hr] at ha
        rw [ih hr]
        simp only at ha ⊢
        split at ha <;> rename_i hx <;>
          simp only [Except.ok.injEq, Prod.mk.injEq] at ha <;> obtain ⟨rfl, rfl, rfl, rfl⟩ := ha
        · rw [if_pos hx]; simp; omega
        · rw [if_neg hx]; simp; omega

theorem rollup_infos (t : FsTree) (ht : t.Ok) (at_ : List Str) (ha : ∀ m ∈ at_, IsName m) :
    ∃ f f' b b', rollup (t.fileInfos at_) = .ok (f, 0, b, b) ∧
      rollup (t.subInfos at_) = .ok (f', t.dirCount, b', b') ∧ f + f' = t.fileCount ∧
      b + b' = t.byteCount := by
  induction t generalizing at_ with
  | nil => exact ⟨0, 0, 0, 0, rfl, rfl, rfl, rfl⟩
  | file n c next ih =>
    obtain ⟨f, f', b, b', h1, h2, h3, h4⟩ := ih ht.2.2 at_ ha
    have hall : ∀ m ∈ at_ ++ [n], IsName m := by
      intro x hx
      rcases List.mem_append.1 hx with hx | hx
      · exact ha x hx
      · rw [List.mem_singleton.1 hx]; exact ht.1
    obtain ⟨h5, h6⟩ := slashed_last (p := at_ ++ [n]) (by simp) hall
    obtain ⟨x, hx⟩ : ∃ x, (slashed (at_ ++ [n])).getLast? = some x :=
      ⟨_, List.getLast?_eq_some_getLast h5⟩
    refine ⟨f + 1, f', b + c.length, b', ?_, h2, by simp [fileCount]; omega, by simp [byteCount]; omega⟩
    rw [fileInfos, rollup, fileInfo_name (by simp), hx, h1]
    simp only
    rw [if_neg (fun h => h6 (by rw [hx, h]))]
    simp [fileInfo]
  | dir n s next ihs ih =>
    have hall : ∀ m ∈ at_ ++ [n], IsName m := by
      intro x hx
      rcases List.mem_append.1 hx with hx | hx
      · exact ha x hx
      · rw [List.mem_singleton.1 hx]; exact ht.1
    obtain ⟨f, f', b, b', h1, h2, h3, h4⟩ := ih ht.2.2.2 at_ ha
    obtain ⟨g, g', c, c', k1, k2, k3, k4⟩ := ihs ht.2.2.1 (at_ ++ [n]) hall
    have hd : rollup [dirInfo (at_ ++ [n])] = .ok (0, 1, 0, 0) := by
      rw [rollup, dirInfo_name (by simp) hall]
      simp [rollup]
    refine ⟨f, g + g' + f', b, c + c' + b', h1, ?_, by simp [fileCount]; omega,
      by simp [byteCount]; omega⟩
    have := rollup_append (rollup_append hd (rollup_append k1 k2)) h2
    rw [List.singleton_append] at this
    rw [subInfos, this]
    simp [dirCount]
    omega
  | linkFile n c next ih => exact ih ht.2.2 at_ ha
  | linkDir n s next _ ih => exact ih ht.2.2.2 at_ ha
  | dangling n next ih => exact ih ht.2.2 at_ ha
  | special n next ih => exact ih ht.2.2 at_ ha

/-- C125. The totals are the numbers of files and directories and of the bytes in the files. -/
theorem C125_totals (t : FsTree) (above : List FsTree) (ht : t.Ok) :
    ∃ es, (Exploded.new t above).infolist = .ok es ∧
      rollup es = .ok (t.fileCount, t.dirCount, t.byteCount, t.byteCount) := by
  refine ⟨t.collectInfos, by rw [Exploded.infolist, new_members t above ht], ?_⟩
  obtain ⟨f, f', b, b', h1, h2, h3, h4⟩ := rollup_infos t ht [] (by simp)
  have := rollup_append h1 h2
  rw [FsTree.collectInfos, this]
  simp
  omega

theorem get_none {t : FsTree} {n : Str} (h : n ∉ t.names) : t.get n = none := by
  induction t with
  | nil => rfl
  | file m c next ih | dir m s next _ ih | linkFile m c next ih | linkDir m s next _ ih | dangling m next ih
  | special m next ih =>
    simp only [FsTree.names, List.mem_cons, not_or] at h
    rw [FsTree.get, if_neg (fun e => h.1 e.symm), ih h.2]

theorem FsTree.Reaches.path {t : FsTree} {p : List Str} {b : Bytes} (h : t.Reaches p b) :
    ∃ n q, p = n :: q ∧ n ∈ t.names := by
  induction t with
  | nil => exact h.elim
  | file n c next ih | linkFile n c next ih =>
    rcases h with ⟨rfl, _⟩ | h
    · exact ⟨n, [], rfl, by simp [names]⟩
    · obtain ⟨m, q, h1, h2⟩ := ih h
      exact ⟨m, q, h1, by simp [names, h2]⟩
  | dir n s next _ ih | linkDir n s next _ ih =>
    rcases h with ⟨q, rfl, _⟩ | h
    · exact ⟨n, q, rfl, by simp [names]⟩
    · obtain ⟨m, q, h1, h2⟩ := ih h
      exact ⟨m, q, h1, by simp [names, h2]⟩
  | dangling n next ih | special n next ih =>
    obtain ⟨m, q, h1, h2⟩ := ih h; exact ⟨m, q, h1, by simp [names, h2]⟩

theorem reaches_cons {t : FsTree} (ht : t.Ok) {n : Str} {p : List Str} {b : Bytes} :
    t.Reaches (n :: p) b ↔
      (p = [] ∧ t.get n = some (.file b)) ∨ ∃ s, t.get n = some (.dir s) ∧ s.Ok ∧ s.Reaches p b := by
  induction t with
  | nil => simp [FsTree.Reaches, FsTree.get]
  | file m c next ih | linkFile m c next ih =>
    by_cases hm : m = n
    · subst hm
      have : ¬ next.Reaches (m :: p) b := by
        intro h
        obtain ⟨k, q, h1, h2⟩ := h.path
        simp only [List.cons.injEq] at h1
        exact ht.2.1 (h1.1 ▸ h2)
      simp only [FsTree.Reaches, FsTree.get, if_true, this, or_false, List.cons.injEq, true_and,
        Option.some.injEq, FsNode.file.injEq, reduceCtorEq, false_and, exists_false, or_false]
      exact ⟨fun h => ⟨h.1, h.2.symm⟩, fun h => ⟨h.1, h.2.symm⟩⟩
    · rw [FsTree.Reaches, FsTree.get, if_neg hm, ← ih ht.2.2]
      simp only [List.cons.injEq, fun h : n = m => hm h.symm, false_and, false_or]
      constructor
      · rintro (⟨⟨h, _⟩, _⟩ | h)
        · exact absurd h.symm hm
        · exact h
      · exact .inr
  | dir m s next _ ih | linkDir m s next _ ih =>
    by_cases hm : m = n
    · subst hm
      have : ¬ next.Reaches (m :: p) b := by
        intro h
        obtain ⟨k, q, h1, h2⟩ := h.path
        simp only [List.cons.injEq] at h1
        exact ht.2.1 (h1.1 ▸ h2)
      simp only [FsTree.Reaches, FsTree.get, if_true, this, or_false, List.cons.injEq, true_and,
        Option.some.injEq, FsNode.dir.injEq, reduceCtorEq, and_false, false_or]
      constructor
      · rintro ⟨q, rfl, h⟩; exact ⟨s, rfl, ht.2.2.1, h⟩
      · rintro ⟨_, rfl, _, h⟩; exact ⟨p, rfl, h⟩
    · rw [FsTree.Reaches, FsTree.get, if_neg hm, ← ih ht.2.2.2]
      constructor
      · rintro (⟨q, h, _⟩ | h)
        · simp only [List.cons.injEq] at h
          exact absurd h.1.symm hm
        · exact h
      · exact .inr
  | dangling m next ih | special m next ih =>
    by_cases hm : m = n
    · subst hm
      have : ¬ next.Reaches (m :: p) b := by
        intro h
        obtain ⟨k, q, h1, h2⟩ := h.path
        simp only [List.cons.injEq] at h1
        exact ht.2.1 (h1.1 ▸ h2)
      simp [FsTree.Reaches, FsTree.get, this]
    · rw [FsTree.Reaches, FsTree.get, if_neg hm, ← ih ht.2.2]

theorem openParts_names (t : FsTree) (ht : t.Ok) (above : List FsTree) (p : List Str)
    (hn : ∀ n ∈ p, IsName n) (b : Bytes) : openParts (t :: above) p = .ok b ↔ t.Reaches p b := by
  induction p generalizing t above with
  | nil =>
    simp only [openParts, reduceCtorEq, false_iff]
    intro h
    obtain ⟨n, q, h, _⟩ := h.path
    cases h
  | cons n p ih =>
    have h1 := hn n (by simp)
    rw [openParts, if_neg (by simp [h1.1, h1.2.2.1]), if_neg h1.2.2.2, reaches_cons ht]
    simp only [List.head?_cons]
    cases hg : t.get n with
    | none => simp
    | some x =>
      cases x with
      | file c =>
        simp only [Option.some.injEq, FsNode.file.injEq, reduceCtorEq, false_and, exists_false, or_false]
        split
        · rename_i hp; simp [hp]
        · rename_i hp; simp [hp]
      | dir s =>
        simp only [Option.some.injEq, FsNode.dir.injEq, reduceCtorEq, and_false, false_or]
        have hs : s.Ok := by
          clear ih h1
          induction t with
          | nil => cases hg
          | file m c next ih | linkFile m c next ih =>
            rw [FsTree.get] at hg
            split at hg
            · cases hg
            · exact ih ht.2.2 hg
          | dir m s' next _ ih | linkDir m s' next _ ih =>
            rw [FsTree.get] at hg
            split at hg
            · cases hg; exact ht.2.2.1
            · exact ih ht.2.2.2 hg
          | dangling m next ih | special m next ih =>
            rw [FsTree.get] at hg
            split at hg
            · cases hg
            · exact ih ht.2.2 hg
        rw [ih s hs _ fun m hm => hn m (by simp [hm])]
        constructor
        · intro h; exact ⟨s, rfl, hs, h⟩
        · rintro ⟨_, rfl, _, h⟩; exact h
      | missing => simp
      | special => simp

theorem FsTree.FileIn.reaches {t : FsTree} {p : List Str} {b : Bytes} (h : t.FileIn p b) :
    t.Reaches p b := by
  induction t generalizing p with
  | nil => exact h
  | file n c next ih => exact h.imp id ih
  | dir n s next ihs ih => exact h.imp (fun ⟨q, e, h⟩ => ⟨q, e, ihs h⟩) ih
  | linkFile n c next ih => exact .inr (ih h)
  | linkDir n s next _ ih => exact .inr (ih h)
  | dangling n next ih => exact ih h
  | special n next ih => exact ih h

theorem FsTree.Reaches.fileIn {t : FsTree} {p : List Str} {b : Bytes} (hl : t.NoLinks)
    (h : t.Reaches p b) : t.FileIn p b := by
  induction t generalizing p with
  | nil => exact h
  | file n c next ih => exact h.imp id (ih hl)
  | dir n s next ihs ih => exact h.imp (fun ⟨q, e, h⟩ => ⟨q, e, ihs hl.1 h⟩) (ih hl.2)
  | linkFile n c next ih => exact hl.elim
  | linkDir n s next _ ih => exact hl.elim
  | dangling n next ih => exact hl.elim
  | special n next ih => exact ih hl h

theorem slashed_head_ne {p : List Str} (hn : ∀ n ∈ p, IsName n) : (slashed p).head? ≠ some '/' := by
  cases p with
  | nil => simp [slashed]
  | cons n p =>
    have h := hn n (by simp)
    cases n with
    | nil => exact absurd rfl h.1
    | cons c n =>
      have hc : c ≠ '/' := fun e => h.2.1 (by simp [e])
      cases p <;> simp [slashed, hc]

/-- C126. Below the directory, `read` finds exactly the files at a path, also through links. -/
theorem C126_links (t : FsTree) (above : List FsTree) (ht : t.Ok) (p : List Str) (hp : p ≠ [])
    (hn : ∀ n ∈ p, IsName n) (b : Bytes) :
    (Exploded.new t above).read (slashed p) = .ok b ↔ t.Reaches p b := by
  rw [Exploded.read, if_neg (slashed_head_ne hn), splitAll_slashed hp hn]
  exact openParts_names t ht above p hn b

/-- C125. Every file that is listed can be read, and gives the content of the file. -/
theorem C125_read (t : FsTree) (above : List FsTree) (ht : t.Ok) (p : List Str) (b : Bytes)
    (h : t.FileIn p b) : (Exploded.new t above).read (slashed p) = .ok b := by
  refine (C126_links t above ht p ?_ (h.isNames ht) b).2 h.reaches
  obtain ⟨n, q, rfl, _⟩ := h.path; simp

/-- C125. After `close` there is no list, but files can be read as before. -/
theorem C125_closed (x : Exploded) :
    x.close.namelist = .error .attributeError ∧ x.close.infolist = .error .attributeError ∧
    (∀ f, x.close.getinfo f = .error .attributeError) ∧ ∀ f, x.close.read f = x.read f :=
  ⟨rfl, rfl, fun _ => rfl, fun _ => rfl⟩

/-- C125. The members are those at the time of `refresh`: a new directory below the same name is
seen after `refresh` and not before. -/
theorem C125_refresh (x : Exploded) (t : FsTree) (above : List FsTree) :
    Exploded.refresh { x with place := t :: above } = Exploded.new t above ∧
    ({ x with place := t :: above } : Exploded).namelist = x.namelist := ⟨rfl, rfl⟩

/-- `a.txt` and a directory `d` with an empty file; `l` is a link. -/
def sampleTree : FsTree :=
  .file "a.txt".toList [1, 2, 3] (.dir "d".toList (.file "e".toList [] .nil)
    (.linkFile "l".toList [9] .nil))

example : sampleTree.Ok := by
  simp [sampleTree, FsTree.Ok, FsTree.names, IsName]

example : (Exploded.new sampleTree []).namelist = .ok ["a.txt".toList, "d/".toList, "d/e".toList] ∧
    (Exploded.new sampleTree []).read "a.txt".toList = .ok [1, 2, 3] ∧
    (Exploded.new sampleTree []).read "d".toList = .error (.other "IsADirectoryError") ∧
    rollup sampleTree.collectInfos = .ok (2, 1, 3, 3) := by decide +kernel

/-! ### C126 -/

/-- C126 as stated: what can be read is a member. -/
def C126_full : Prop :=
  ∀ (t : FsTree) (above : List FsTree) (x : Str) (b : Bytes), t.Ok →
    (Exploded.new t above).read x = .ok b →
    ∃ l, (Exploded.new t above).namelist = .ok l ∧ x ∈ l

/-- C126 for plain relative paths in a directory without links: what can be read is a member, and
is the content of that file. Missing: links, absolute paths and paths with `.` or `..`. -/
theorem C126_partial (t : FsTree) (above : List FsTree) (ht : t.Ok) (hl : t.NoLinks) (p : List Str)
    (hp : p ≠ []) (hn : ∀ n ∈ p, IsName n) (b : Bytes)
    (h : (Exploded.new t above).read (slashed p) = .ok b) :
    (∃ l, (Exploded.new t above).namelist = .ok l ∧ slashed p ∈ l) ∧ t.FileIn p b := by
  have h1 := ((C126_links t above ht p hp hn b).1 h).fileIn hl
  obtain ⟨l, h2, _, _, h3⟩ := C125_names t above ht
  exact ⟨⟨l, h2, (h3 _).2 (.inl ⟨p, b, h1, rfl⟩)⟩, h1⟩

/-- C126. An absolute path reads any file of the system. -/
theorem C126_absolute (t : FsTree) (above : List FsTree) (root : FsTree) (hr : root.Ok)
    (hroot : (t :: above).getLast? = some root) (p : List Str) (hp : p ≠ []) (hn : ∀ n ∈ p, IsName n)
    (b : Bytes) : (Exploded.new t above).read ('/' :: slashed p) = .ok b ↔ root.Reaches p b := by
  have hs : splitAll '/' ('/' :: slashed p) = [] :: p := by
    have := splitAll_cons (x := '/') (a := []) (b := slashed p) (by simp)
    rw [List.nil_append, splitAll_slashed hp hn] at this
    exact this
  rw [Exploded.read, if_pos (by simp), hs]
  show openParts ((t :: above).getLast?.toList) _ = _ ↔ _
  rw [hroot, openParts, if_pos (.inl rfl)]
  exact openParts_names root hr [] p hn b

/-- C126. A path with `..` reads any file beside the directory. -/
theorem C126_parent (t parent : FsTree) (above : List FsTree) (hr : parent.Ok) (p : List Str)
    (hp : p ≠ []) (hn : ∀ n ∈ p, IsName n) (b : Bytes) :
    (Exploded.new t (parent :: above)).read ("../".toList ++ slashed p) = .ok b ↔
      parent.Reaches p b := by
  have hs : splitAll '/' ("../".toList ++ slashed p) = ['.', '.'] :: p := by
    have := splitAll_cons (x := '/') (a := ['.', '.']) (b := slashed p) (by decide)
    rw [splitAll_slashed hp hn] at this
    exact this
  rw [Exploded.read, if_neg (by simp), hs, openParts, if_neg (by simp), if_pos rfl]
  exact openParts_names parent hr above p hn b

/-- C126. The full claim is false, already for a file beside the directory. -/
theorem C126_full_fails : ¬ C126_full := by
  intro h
  have h1 : (Exploded.new .nil [.file "s".toList [7] .nil]).read "../s".toList = .ok [7] := by
    decide +kernel
  obtain ⟨l, h2, h3⟩ := h .nil [.file "s".toList [7] .nil] "../s".toList [7] trivial h1
  have h4 : (Exploded.new .nil [.file "s".toList [7] .nil]).namelist = .ok [] := by decide +kernel
  rw [h4] at h2
  cases h2
  cases h3

example : (Exploded.new sampleTree []).read "l".toList = .ok [9] ∧
    (Exploded.new sampleTree [.file "s".toList [7] .nil]).read "/s".toList = .ok [7] ∧
    (Exploded.new sampleTree []).read "./d/../a.txt".toList = .ok [1, 2, 3] := by decide +kernel

end Javatools
