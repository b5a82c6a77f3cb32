import Verif.Props.Dir
import Verif.Props.ZipAccess

/-!
For exactly which trees the comparison of directories is as C59 says.
-/

namespace Javatools

open FsTree

/-- Different paths have different texts. -/
theorem denotes_unique {s : Str} {p q : List Str} (hp : p ≠ []) (hq : q ≠ [])
    (hpn : ∀ m ∈ p, IsName m) (hqn : ∀ m ∈ q, IsName m) (h : Denotes s p) (h' : Denotes s q) : p = q := by
  have hdot : ∀ (q : List Str) (n : Str), q ≠ [] → (∀ m ∈ q, IsName m) → slashed q ≠ "./".toList ++ n := by
    intro q n hq hqn he
    match q with
    | [] => exact hq rfl
    | [m] => exact (hqn m (by simp)).2.1 (by rw [show m = "./".toList ++ n from he]; simp)
    | m :: k :: ks =>
      have hm := hqn m (by simp)
      simp only [slashed] at he
      match m, hm with
      | [], hm => exact hm.1 rfl
      | [c], hm =>
        simp at he
        exact hm.2.2.1 (by rw [he.1])
      | c :: d :: cs, hm =>
        simp at he
        exact hm.2.1 (by simp [he.2.1])
  rcases h with h | h <;> rcases h' with h' | h'
  · exact slashed_inj hp hq hpn hqn (h.symm.trans h')
  · exact absurd (h.symm.trans h') (hdot p _ hp hpn)
  · exact absurd (h'.symm.trans h) (hdot q _ hq hqn)
  · exact slashed_inj hp hq hpn hqn (List.append_cancel_left (h.symm.trans h'))

/-- Nothing is said about a path that is a file on one side and a directory on the other. -/
theorem eventPaths_noClash {l r : Forest} (hl : l.Ok) (hr : r.Ok) {ev : Event} {p : List Str}
    (h : (ev, p) ∈ (eventPaths l r).1) :
    ¬ ((∃ b t, FileAt l p b t) ∧ DirAt r p) ∧ ¬ (DirAt l p ∧ ∃ b t, FileAt r p b t) := by
  induction p generalizing l r with
  | nil =>
    exact ⟨fun h => h.2.ne_nil rfl, fun h => h.1.ne_nil rfl⟩
  | cons n p ih =>
    rcases mem_andThen h with h | ⟨_, h⟩
    · have h := (mem_levelPaths hl hr).1 h
      have nodir : ∀ {F : Forest}, F.Ok → n ∉ F.names → ¬ DirAt F (n :: p) := by
        intro F hF hn hd
        obtain ⟨s, hs, _⟩ := (dirAt_cons hF).1 hd
        exact hn (find_mem_names hs)
      cases ev with
      | left =>
        obtain ⟨k, q', e, h3, b, t, h4⟩ := h
        obtain ⟨rfl, rfl⟩ := List.cons.inj e
        exact ⟨fun h => nodir hr h3 h.2, fun h => h4.not_dirAt hl h.1⟩
      | right =>
        obtain ⟨k, q', e, h3, b, t, h4⟩ := h
        obtain ⟨rfl, rfl⟩ := List.cons.inj e
        exact ⟨fun h => h4.not_dirAt hr h.2, fun h => nodir hl h3 h.1⟩
      | same =>
        obtain ⟨k, b, t, c, u, e, h3, h4, _⟩ := h
        obtain ⟨rfl, rfl⟩ := List.cons.inj e
        exact ⟨fun h => ((fileAt_cons hr).2 (.inl ⟨rfl, h4⟩)).not_dirAt hr h.2,
          fun h => ((fileAt_cons hl).2 (.inl ⟨rfl, h3⟩)).not_dirAt hl h.1⟩
      | diff =>
        obtain ⟨k, b, t, c, u, e, h3, h4, _⟩ := h
        obtain ⟨rfl, rfl⟩ := List.cons.inj e
        exact ⟨fun h => ((fileAt_cons hr).2 (.inl ⟨rfl, h4⟩)).not_dirAt hr h.2,
          fun h => ((fileAt_cons hl).2 (.inl ⟨rfl, h3⟩)).not_dirAt hl h.1⟩
    · split at h
      · simp at h
      · obtain ⟨m, q, s, s', h1, h2, h3, h4⟩ := mem_subEventPaths hl h
        obtain ⟨rfl, rfl⟩ := List.cons.inj h1
        obtain ⟨h5, h6⟩ := ih (hl.find_dir h2) (hr.find_dir h3) h4
        have hp : p ≠ [] := (reported_names (hl.find_dir h2) (hr.find_dir h3)
          (eventPaths_sound (hl.find_dir h2) (hr.find_dir h3) h4)).1
        simp only [fileAt_sub hl h2, fileAt_sub hr h3, dirAt_sub hl h2 hp, dirAt_sub hr h3 hp]
        exact ⟨h5, h6⟩

theorem zip_fst_of_mem {α β : Type} : ∀ {l : List α} {m : List β}, l.length = m.length →
    ∀ {y}, y ∈ m → ∃ x, (x, y) ∈ l.zip m
  | [], [], _, _, h => nomatch h
  | a :: l, b :: m, hl, y, h => by
    rcases List.mem_cons.1 h with rfl | h
    · exact ⟨a, by simp⟩
    · obtain ⟨x, hx⟩ := zip_fst_of_mem (l := l) (m := m) (by simpa using hl) h
      exact ⟨x, by simp [hx]⟩

/-- C59, for exactly which trees the comparison reports every file once, by its content: there is no
path that is a file on one side and a directory on the other, there are no two common subdirectories
in one directory, and files of the same size and time have the same content. -/
theorem C59_exact (l r : Forest) (hl : l.Ok) (hr : r.Ok) :
    (∃ evs ps, compareDirs l r = (evs, none) ∧ Reports SameContent l r evs ps) ↔
      NoClash l r ∧ OneCommon l r ∧
      ∀ p b c t, FileAt l p b t → FileAt r p c t → b.length = c.length → b = c := by
  constructor
  · rintro ⟨evs, ps, h1, h2⟩
    have hall : ∀ ev p, Reporting SameContent l r ev p → (ev, p) ∈ (eventPaths l r).1 := by
      intro ev p hp
      have hm := (h2.all ev p).2 hp
      obtain ⟨x, hx⟩ := zip_fst_of_mem h2.text.1 hm
      obtain ⟨e1, e2⟩ := h2.text.2 _ hx
      have hx' := (List.of_mem_zip hx).1
      rw [show evs = (compareDirs l r).1 by rw [h1], compareDirs_text hl hr] at hx'
      obtain ⟨y, hy, rfl⟩ := List.mem_map.1 hx'
      obtain ⟨e3, e4⟩ := eventText_denotes y
      obtain ⟨n1, n2⟩ := reported_names hl hr (eventPaths_sound hl hr hy)
      have n3 : p ≠ [] ∧ ∀ m ∈ p, IsName m := by
        cases ev with
        | left => obtain ⟨⟨b, t, h⟩, _⟩ := hp; exact ⟨h.ne_nil, fileAt_names hl h⟩
        | right => obtain ⟨⟨b, t, h⟩, _⟩ := hp; exact ⟨h.ne_nil, fileAt_names hr h⟩
        | same => obtain ⟨_, _, _, _, h, _⟩ := hp; exact ⟨h.ne_nil, fileAt_names hl h⟩
        | diff => obtain ⟨_, _, _, _, h, _⟩ := hp; exact ⟨h.ne_nil, fileAt_names hl h⟩
      have e5 := denotes_unique n1 n3.1 n2 n3.2 e4 e2
      have : y = (ev, p) := Prod.ext (e3.symm.trans e1) e5
      rw [← this]; exact hy
    refine ⟨fun p => ⟨?_, ?_⟩, (C59_subdirs l r hl hr).1.1 (by rw [h1]), ?_⟩
    · rintro ⟨hf, hd⟩
      have h3 := hall .left p ⟨hf, fun ⟨c, u, h⟩ => h.not_dirAt hr hd⟩
      exact (eventPaths_noClash hl hr h3).1 ⟨hf, hd⟩
    · rintro ⟨hd, hf⟩
      have h3 := hall .right p ⟨hf, fun ⟨c, u, h⟩ => h.not_dirAt hl hd⟩
      exact (eventPaths_noClash hl hr h3).2 ⟨hd, hf⟩
    · intro p b c t hb hc hlen
      apply Classical.byContradiction
      intro hne
      have h3 := eventPaths_sound hl hr (hall .diff p ⟨b, t, c, t, hb, hc, hne⟩)
      have h4 : Reporting Shallow l r .same p := ⟨b, t, c, t, hb, hc, .inr ⟨hlen, rfl⟩⟩
      cases reported_unique hl hr h3 h4
  · rintro ⟨h1, h2, h3⟩
    exact C59_partial l r hl hr h1 h2 h3

/-- A file in `d` on one side and a directory of its name on the other. -/
example : ¬ ∃ evs ps, compareDirs (.dir "d".toList (.file "x".toList [1] 0 .nil) .nil)
      (.dir "d".toList (.dir "x".toList .nil .nil) .nil) = (evs, none) ∧
      Reports SameContent (.dir "d".toList (.file "x".toList [1] 0 .nil) .nil)
        (.dir "d".toList (.dir "x".toList .nil .nil) .nil) evs ps := by
  rw [C59_exact _ _ (by simp only [Forest.Ok, IsName, Forest.names]; decide)
    (by simp only [Forest.Ok, IsName, Forest.names]; decide)]
  rintro ⟨h, _⟩
  exact (h ["d".toList, "x".toList]).1 ⟨⟨[1], 0, .inside _ (.here ..)⟩, .inside _ (.here ..)⟩

end Javatools
