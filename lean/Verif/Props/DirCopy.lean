import Verif.Proofs.Dir
/-
C60: copying of directories.
-/
namespace Javatools

/-- The list that is returned: one pair for every file. -/
def PairsOf (orig dest : Str) (F : Forest) (ps : List (Str × Str)) : Prop :=
  ∃ qs : List (List Str), qs.Nodup ∧ (∀ q, q ∈ qs ↔ ∃ b t, FileAt F q b t) ∧
    ps = qs.map fun q => (q.foldl pathJoin orig, pathJoin dest (slashed q))

/-- C60 as stated, for a destination that does not exist. -/
def C60_full : Prop :=
  ∀ (orig dest : Str) (F : Forest), F.Ok → ∃ D ps, copydir orig dest F (fun _ => none) = .ok (D, ps) ∧
    (∀ p b t, FileAt F p b t → D p = some (some b)) ∧ PairsOf orig dest F ps

theorem set_same (d : Disk) (p : List Str) (x : Option Bytes) : d.set p x p = some x := if_pos rfl

theorem set_other (d : Disk) {p q : List Str} (x : Option Bytes) (h : q ≠ p) : d.set p x q = d q :=
  if_neg h

theorem makeDirs_spec {D : Disk} (h0 : D [] = some none) (ns : List Str) :
    ∃ D', makeDirs D ns = .ok D' ∧
      ∀ q, D' q = if D q = none ∧ ∃ n ∈ ns, q = [n] then some none else D q := by
  induction ns generalizing D with
  | nil => exact ⟨D, rfl, fun q => by simp⟩
  | cons n ns ih =>
    simp only [makeDirs]
    cases hn : D [n] with
    | some x =>
      obtain ⟨D', h1, h2⟩ := ih h0
      refine ⟨D', by simp only [makedirsp, hn, h1], fun q => ?_⟩
      rw [h2]
      by_cases hq : q = [n]
      · subst hq
        simp [hn]
      · simp [hq]
    | none =>
      have hm : makedirsp D [n] = .ok (D.set [n] none) := by
        simp [makedirsp, hn, h0]
      obtain ⟨D', h1, h2⟩ := ih (D := D.set [n] none) (by rw [set_other _ _ (by simp)]; exact h0)
      refine ⟨D', by rw [hm]; exact h1, fun q => ?_⟩
      rw [h2]
      by_cases hq : q = [n]
      · subst hq
        simp [hn, set_same]
      · rw [set_other _ _ hq]
        simp [hq]

theorem copyFile_ok {D : Disk} {base : Str} {b : Bytes} {p : List Str} (h1 : D p ≠ some none)
    (h2 : D p.dropLast = some none) : copyFile D base b p = .ok (D.set p (some b)) := by
  unfold copyFile
  simp only [if_neg h1, h2]

theorem append_one_inj {a : List Str} {n m : Str} (h : a ++ [n] = a ++ [m]) : n = m := by
  simpa using h

theorem copyFiles_spec {D : Disk} {at_ : List Str} (ha : D at_ = some none) (fs : List (Str × Bytes))
    (hd : ∀ g ∈ fs, D (at_ ++ [g.1]) ≠ some none) (hn : (fs.map Prod.fst).Nodup) :
    ∃ D', copyFiles D at_ fs = .ok (D', fs.map fun g => at_ ++ [g.1]) ∧
      (∀ g ∈ fs, D' (at_ ++ [g.1]) = some (some g.2)) ∧
      ∀ q, (∀ g ∈ fs, q ≠ at_ ++ [g.1]) → D' q = D q := by
  induction fs generalizing D with
  | nil => exact ⟨D, rfl, by simp, fun _ _ => rfl⟩
  | cons g fs ih =>
    obtain ⟨n, b⟩ := g
    simp only [List.map_cons, List.nodup_cons] at hn
    have hne : ∀ g ∈ fs, at_ ++ [g.1] ≠ at_ ++ [n] := by
      intro g hg he
      exact hn.1 (List.mem_map.2 ⟨g, hg, append_one_inj he⟩)
    have hc : copyFile D n b (at_ ++ [n]) = .ok (D.set (at_ ++ [n]) (some b)) :=
      copyFile_ok (hd (n, b) (by simp)) (by rw [List.dropLast_concat]; exact ha)
    obtain ⟨D', h1, h2, h3⟩ := ih (D := D.set (at_ ++ [n]) (some b))
      (by rw [set_other _ _ (by simp)]; exact ha)
      (fun g hg => by rw [set_other _ _ (hne g hg)]; exact hd g (by simp [hg])) hn.2
    refine ⟨D', ?_, ?_, ?_⟩
    · simp only [copyFiles, hc, h1, List.map_cons]
    · intro g hg
      rcases List.mem_cons.1 hg with rfl | hg
      · rw [h3 _ fun g hg e => hne g hg e.symm, set_same]
      · exact h2 g hg
    · intro q hq
      rw [h3 q fun g hg => hq g (by simp [hg]), set_other _ _ (hq (n, b) (by simp))]

/-- A directory below the top, with what it contains. -/
theorem copyWalk_spec {D : Disk} (h0 : D [] = some none)
    (ws : List (List Str × List Str × List (Str × Bytes)))
    (hne : ∀ w ∈ ws, w.1 ≠ [])
    (hdir : ∀ w ∈ ws, w.2.2 ≠ [] → D w.1 = some none)
    (hfile : ∀ w ∈ ws, ∀ g ∈ w.2.2, D (w.1 ++ [g.1]) ≠ some none)
    (hn : (walkPaths ws).Nodup) :
    ∃ D', copyWalk D ws = .ok (D', walkPaths ws) ∧
      (∀ w ∈ ws, ∀ g ∈ w.2.2, D' (w.1 ++ [g.1]) = some (some g.2)) ∧
      ∀ q, q ∉ walkPaths ws → D' q = D q ∨ (D q = none ∧ D' q = some none) := by
  induction ws generalizing D with
  | nil => exact ⟨D, rfl, by simp, fun _ _ => .inl rfl⟩
  | cons w ws ih =>
    obtain ⟨at_, dirs, fs⟩ := w
    have hat : at_ ≠ [] := hne _ (List.mem_cons_self ..)
    have hwp : walkPaths ((at_, dirs, fs) :: ws) = (fs.map fun g => at_ ++ [g.1]) ++ walkPaths ws := rfl
    rw [hwp, List.nodup_append] at hn
    obtain ⟨hn1, hn2, hn3⟩ := hn
    have hn1' : (fs.map Prod.fst).Nodup := by
      have : (fs.map fun g => at_ ++ [g.1]) = (fs.map Prod.fst).map fun n => at_ ++ [n] := by
        simp [Function.comp_def]
      rw [this] at hn1
      exact List.Pairwise.of_map (fun n => at_ ++ [n]) (fun a b h e => h (by rw [e])) hn1
    obtain ⟨D1, m1, m2⟩ := makeDirs_spec h0 dirs
    have hD1 : ∀ q, D q ≠ none → D1 q = D q := by
      intro q hq
      rw [m2, if_neg fun h => hq h.1]
    have hD1' : ∀ q, 2 ≤ q.length → D1 q = D q := by
      intro q hq
      rw [m2, if_neg]
      rintro ⟨_, n, _, rfl⟩
      simp at hq
    have hlen : ∀ g : Str × Bytes, 2 ≤ (at_ ++ [g.1]).length := by
      intro g
      cases at_ with
      | nil => exact absurd rfl hat
      | cons x xs => simp
    have hcopy : ∃ D2, copyFiles D1 at_ fs = .ok (D2, fs.map fun g => at_ ++ [g.1]) ∧
        (∀ g ∈ fs, D2 (at_ ++ [g.1]) = some (some g.2)) ∧
        ∀ q, (∀ g ∈ fs, q ≠ at_ ++ [g.1]) → D2 q = D1 q := by
      by_cases hf : fs = []
      · subst hf
        exact ⟨D1, rfl, by simp, fun _ _ => rfl⟩
      · have hd := hdir _ (List.mem_cons_self ..) hf
        simp only at hd
        refine copyFiles_spec (by rw [hD1 _ (by rw [hd]; simp), hd]) fs ?_ hn1'
        intro g hg
        rw [hD1' _ (hlen g)]
        exact hfile _ (List.mem_cons_self ..) g hg
    obtain ⟨D2, c1, c2, c3⟩ := hcopy
    have hkeep : ∀ q, D q = some none → D2 q = some none := by
      intro q hq
      rw [c3, hD1 q (by rw [hq]; simp), hq]
      rintro g hg rfl
      exact hfile _ (List.mem_cons_self ..) g hg hq
    obtain ⟨D3, w1, w2, w3⟩ := ih (D := D2) (hkeep _ h0) (fun w hw => hne w (by simp [hw]))
      (fun w hw hf => hkeep _ (hdir w (by simp [hw]) hf))
      (fun w hw g hg => by
        by_cases hm : ∃ g' ∈ fs, w.1 ++ [g.1] = at_ ++ [g'.1]
        · obtain ⟨g', hg', he⟩ := hm
          rw [he, c2 g' hg']
          simp
        · rw [c3 _ fun g' hg' he => hm ⟨g', hg', he⟩, hD1']
          · exact hfile w (by simp [hw]) g hg
          · have := hne w (by simp [hw])
            cases hw1 : w.1 with
            | nil => exact absurd hw1 this
            | cons x xs => simp) hn2
    refine ⟨D3, ?_, ?_, ?_⟩
    · simp only [copyWalk, m1, c1, w1]
      rfl
    · intro w hw g hg
      rcases List.mem_cons.1 hw with rfl | hw
      · have hmem : at_ ++ [g.1] ∉ walkPaths ws := fun h =>
          hn3 _ (List.mem_map.2 ⟨g, hg, rfl⟩) _ h rfl
        rcases w3 _ hmem with h | ⟨h, _⟩
        · rw [h]; exact c2 g hg
        · rw [c2 g hg] at h; simp at h
      · exact w2 w hw g hg
    · intro q hq
      rw [hwp, List.mem_append, not_or] at hq
      have hD2 : D2 q = D1 q := c3 q fun g hg he => hq.1 (List.mem_map.2 ⟨g, hg, he.symm⟩)
      have hD1q : D1 q = D q ∨ (D q = none ∧ D1 q = some none) := by
        rw [m2]
        split
        · rename_i h; exact .inr ⟨h.1, rfl⟩
        · exact .inl rfl
      rcases w3 q hq.2 with h | ⟨h, h'⟩
      · rw [h, hD2]; exact hD1q
      · rw [hD2] at h
        rcases hD1q with h2 | ⟨_, h2⟩
        · exact .inr ⟨h2 ▸ h, h'⟩
        · rw [h2] at h; simp at h

theorem mem_walkSubs {F : Forest} (hF : F.Ok) {at_ : List Str}
    {w : List Str × List Str × List (Str × Bytes)} (h : w ∈ F.walkSubs at_) :
    ∃ p s, w = (at_ ++ p, s.dirNames, s.files) ∧ p ≠ [] ∧ DirAt F p ∧ s.Ok ∧
      ∀ q b t, FileAt s q b t → FileAt F (p ++ q) b t := by
  induction F generalizing at_ with
  | nil => simp [Forest.walkSubs] at h
  | file m b t nx ih =>
    obtain ⟨p, s, h1, h2, h3, h4, h5⟩ := ih hF.2.2 h
    exact ⟨p, s, h1, h2, .afterFile _ _ _ h3, h4, fun q b t hq => .afterFile _ _ _ (h5 q b t hq)⟩
  | dir m s nx ihs ih =>
    simp only [Forest.walkSubs, List.mem_cons, List.mem_append] at h
    rcases h with rfl | h | h
    · exact ⟨[m], s, rfl, by simp, .here _ _ _, hF.2.2.1, fun q b t hq => .inside _ hq⟩
    · obtain ⟨p, s', h1, h2, h3, h4, h5⟩ := ihs hF.2.2.1 h
      exact ⟨m :: p, s', by rw [h1]; simp, by simp, .inside _ h3, h4,
        fun q b t hq => .inside _ (h5 q b t hq)⟩
    · obtain ⟨p, s', h1, h2, h3, h4, h5⟩ := ih hF.2.2.2 h
      exact ⟨p, s', h1, h2, .afterDir _ _ h3, h4, fun q b t hq => .afterDir _ _ (h5 q b t hq)⟩

theorem walkSubs_facts {F : Forest} (hF : F.Ok) {w : List Str × List Str × List (Str × Bytes)}
    (h : w ∈ F.walkSubs []) : w.1 ≠ [] ∧ DirAt F w.1 ∧
      ∀ g ∈ w.2.2, ∃ t, FileAt F (w.1 ++ [g.1]) g.2 t := by
  obtain ⟨p, s, rfl, h2, h3, h4, h5⟩ := mem_walkSubs hF h
  refine ⟨h2, h3, ?_⟩
  rintro ⟨n, b⟩ hg
  obtain ⟨t, ht⟩ := (mem_files h4).1 hg
  exact ⟨t, h5 _ _ _ ((fileAt_cons h4).2 (.inl ⟨rfl, ht⟩))⟩

/-- The destination can take the files: it is a directory or does not exist, no file is in the way of
a directory or the other way round, and every directory with files two or more levels down is
already there. -/
structure Takes (F : Forest) (D : Disk) : Prop where
  top : D [] = none ∨ D [] = some none
  files : ∀ p b t, FileAt F p b t → D p ≠ some none
  dirs : ∀ n, DirAt F [n] → D [n] = none ∨ D [n] = some none
  deep : ∀ p n b t, 2 ≤ p.length → FileAt F (p ++ [n]) b t → D p = some none

/-- C60 for such destinations; anything else in it is left alone, but there may be new directories.
Missing: directories with files two or more levels down that do not exist yet. -/
theorem C60_partial (orig dest : Str) (F : Forest) (D : Disk) (hF : F.Ok) (hD : Takes F D) :
    ∃ D' ps, copydir orig dest F D = .ok (D', ps) ∧
      (∀ p b t, FileAt F p b t → D' p = some (some b)) ∧ PairsOf orig dest F ps ∧
      ∀ q, (∀ b t, ¬ FileAt F q b t) → D' q = D q ∨ (D q = none ∧ D' q = some none) := by
  obtain ⟨D0, t1, t2, t3⟩ : ∃ D0, makedirsp D [] = .ok D0 ∧ D0 [] = some none ∧
      ∀ q, q ≠ [] → D0 q = D q := by
    rcases hD.top with h | h
    · exact ⟨D.set [] none, by simp [makedirsp, h], set_same _ _ _, fun q hq => set_other _ _ hq⟩
    · exact ⟨D, by simp [makedirsp, h], h, fun _ _ => rfl⟩
  obtain ⟨D1, m1, m2⟩ := makeDirs_spec t2 F.dirNames
  have hfiles : ∀ g ∈ F.files, ∃ t, FileAt F [g.1] g.2 t := by
    rintro ⟨n, b⟩ hg
    obtain ⟨t, ht⟩ := (mem_files hF).1 hg
    exact ⟨t, (fileAt_cons hF).2 (.inl ⟨rfl, ht⟩)⟩
  have hdirs : ∀ n, n ∈ F.dirNames ↔ DirAt F [n] := by
    intro n
    rw [mem_dirNames hF, dirAt_cons hF]
    simp
  obtain ⟨D2, c1, c2, c3⟩ := copyFiles_spec (D := D1) (at_ := []) (by rw [m2]; simp [t2]) F.files
    (fun g hg => by
      obtain ⟨t, ht⟩ := hfiles g hg
      have h1 := hD.files _ _ _ ht
      rw [List.nil_append, m2, if_neg, t3 _ (by simp)]
      · exact h1
      · rintro ⟨_, n, hn, he⟩
        rw [hdirs] at hn
        rw [he] at ht
        exact ht.not_dirAt hF hn)
    (hF.nodup.sublist (files_sublist F))
  have hroot : ∀ q, 2 ≤ q.length → D2 q = D q := by
    intro q hq
    rw [c3 q, m2, if_neg, t3]
    · rintro rfl; simp at hq
    · rintro ⟨_, n, _, rfl⟩; simp at hq
    · rintro g _ rfl; simp at hq
  have hD2nil : D2 [] = some none := by
    rw [c3 [] (by simp), m2]; simp [t2]
  obtain ⟨D3, w1, w2, w3⟩ := copyWalk_spec (D := D2) hD2nil (F.walkSubs [])
    (fun w hw => (walkSubs_facts hF hw).1)
    (fun w hw hf => by
      obtain ⟨hne, hd, hfs⟩ := walkSubs_facts hF hw
      obtain ⟨g, hg⟩ := List.exists_mem_of_ne_nil _ hf
      obtain ⟨t, ht⟩ := hfs g hg
      by_cases hl : 2 ≤ w.1.length
      · rw [hroot _ hl]
        exact hD.deep _ _ _ _ hl ht
      · obtain ⟨n, hn⟩ : ∃ n, w.1 = [n] := by
          match hw1 : w.1 with
          | [] => exact absurd hw1 hne
          | [n] => exact ⟨n, rfl⟩
          | _ :: _ :: _ => rw [hw1] at hl; simp at hl
        rw [hn] at hd ⊢
        have hnd := hD.dirs n hd
        rw [c3, m2]
        · rw [t3 _ (by simp)]
          rcases hnd with h | h
          · rw [if_pos ⟨h, n, (hdirs n).2 hd, rfl⟩]
          · rw [h]; simp
        · rintro g' hg' he
          obtain ⟨t', ht'⟩ := hfiles g' hg'
          rw [List.nil_append] at he
          rw [he] at hd
          exact ht'.not_dirAt hF hd)
    (fun w hw g hg => by
      obtain ⟨hne, hd, hfs⟩ := walkSubs_facts hF hw
      obtain ⟨t, ht⟩ := hfs g hg
      rw [hroot]
      · exact hD.files _ _ _ ht
      · cases hw1 : w.1 with
        | nil => exact absurd hw1 hne
        | cons x xs => simp)
    (paths_nodup hF).2
  have hpaths : F.paths = (F.files.map fun g => [] ++ [g.1]) ++ walkPaths (F.walkSubs []) := paths_eq F
  have hrel : ∀ p ∈ F.paths, relText p = slashed p := by
    intro p hp
    obtain ⟨b, t, h⟩ := (mem_paths hF).1 hp
    exact if_neg h.ne_nil
  refine ⟨D3, _, ?_, ?_, ⟨F.paths, (paths_nodup hF).1, fun q => mem_paths hF, rfl⟩, ?_⟩
  · unfold copydir
    simp only [t1, Forest.walk, copyWalk, m1, c1, w1]
    rw [← hpaths]
    congr 2
    apply List.map_congr_left
    intro p hp
    rw [hrel p hp]
  · intro p b t h
    have hp : p ∈ F.paths := (mem_paths hF).2 ⟨b, t, h⟩
    rw [hpaths, List.mem_append] at hp
    rcases hp with hp | hp
    · obtain ⟨g, hg, rfl⟩ := List.mem_map.1 hp
      obtain ⟨t', ht'⟩ := hfiles g hg
      have hb := (ht'.unique hF h).1
      have hmem : [] ++ [g.1] ∉ walkPaths (F.walkSubs []) := by
        intro hm
        obtain ⟨n, q, h1, h2, _⟩ := subPaths_head (F := F) hm
        simp only [List.nil_append, List.cons.injEq] at h1
        exact h2 h1.2.symm
      rcases w3 _ hmem with h3 | ⟨h3, _⟩
      · rw [h3, c2 g hg, hb]
      · rw [c2 g hg] at h3; simp at h3
    · obtain ⟨w, hw, hp⟩ := List.mem_flatMap.1 hp
      obtain ⟨g, hg, rfl⟩ := List.mem_map.1 hp
      obtain ⟨t', ht'⟩ := (walkSubs_facts hF hw).2.2 g hg
      rw [w2 w hw g hg, (ht'.unique hF h).1]
  · intro q hq
    have hqp : q ∉ F.paths := by
      rw [mem_paths hF]
      rintro ⟨b, t, h⟩
      exact hq b t h
    rw [hpaths, List.mem_append, not_or] at hqp
    have h2 : D2 q = D1 q := c3 q fun g hg he => hqp.1 (List.mem_map.2 ⟨g, hg, he.symm⟩)
    have h0 : D0 q = D q ∨ (D q = none ∧ D0 q = some none) := by
      by_cases hqn : q = []
      · subst hqn
        rcases hD.top with h | h
        · exact .inr ⟨h, t2⟩
        · exact .inl (by rw [t2, h])
      · exact .inl (t3 q hqn)
    have h1 : D1 q = D q ∨ (D q = none ∧ D1 q = some none) := by
      rw [m2]
      split
      · rename_i h
        rcases h0 with h' | ⟨h', h''⟩
        · exact .inr ⟨h' ▸ h.1, rfl⟩
        · rw [h''] at h; simp at h
      · exact h0
    rcases w3 q hqp.2 with h | ⟨h, h'⟩
    · rw [h, h2]; exact h1
    · rw [h2] at h
      rcases h1 with h1 | ⟨_, h1⟩
      · exact .inr ⟨h1 ▸ h, h'⟩
      · rw [h1] at h; simp at h

/-- Directories two or more levels down are never made. -/
def Deep (D0 D : Disk) : Prop := ∀ q, 2 ≤ q.length → D q = some none → D0 q = some none

theorem makeDirs_deep {D0 D D' : Disk} {ns : List Str} (h : makeDirs D ns = .ok D') (hd : Deep D0 D) :
    Deep D0 D' := by
  induction ns generalizing D with
  | nil => simp only [makeDirs, Except.ok.injEq] at h; rw [← h]; exact hd
  | cons n ns ih =>
    simp only [makeDirs] at h
    split at h
    · cases h
    · rename_i D1 h1
      refine ih h ?_
      have : D1 = D ∨ D1 = D.set [n] none := by
        unfold makedirsp at h1
        split at h1
        · exact .inl (Except.ok.inj h1).symm
        · rw [if_neg (by simp)] at h1
          split at h1
          · exact .inr (Except.ok.inj h1).symm
          · cases h1
          · cases h1
      rcases this with rfl | rfl
      · exact hd
      · intro q hq h2
        rw [set_other] at h2
        · exact hd q hq h2
        · rintro rfl; simp at hq

theorem copyFiles_deep {D0 D D' : Disk} {at_ : List Str} {fs : List (Str × Bytes)} {ps : List (List Str)}
    (h : copyFiles D at_ fs = .ok (D', ps)) (hd : Deep D0 D) : Deep D0 D' ∧
      (2 ≤ at_.length → ∀ g ∈ fs, D0 (at_ ++ [g.1]) ≠ some none → D0 at_ = some none) := by
  induction fs generalizing D ps with
  | nil =>
    simp only [copyFiles, Except.ok.injEq, Prod.mk.injEq] at h
    rw [← h.1]
    exact ⟨hd, by simp⟩
  | cons g fs ih =>
    obtain ⟨n, b⟩ := g
    simp only [copyFiles] at h
    split at h
    · cases h
    · rename_i D1 h1
      split at h
      · cases h
      · rename_i D2 ps' h2
        simp only [Except.ok.injEq, Prod.mk.injEq] at h
        obtain ⟨rfl, rfl⟩ := h
        unfold copyFile at h1
        simp only at h1
        have hd1 : Deep D0 D1 := by
          generalize (if D (at_ ++ [n]) = some none then at_ ++ [n] ++ [n] else at_ ++ [n]) = tgt at h1
          split at h1
          · split at h1
            · cases h1
            · rw [← Except.ok.inj h1]
              intro q hq hq2
              unfold Disk.set at hq2
              split at hq2
              · simp at hq2
              · exact hd q hq hq2
          · cases h1
          · cases h1
        obtain ⟨i1, i2⟩ := ih h2 hd1
        refine ⟨i1, ?_⟩
        intro hl g hg hng
        rcases List.mem_cons.1 hg with rfl | hg
        · have hn : D (at_ ++ [n]) ≠ some none := fun he => hng (hd _ (by simp; omega) he)
          simp only [if_neg hn, List.dropLast_concat] at h1
          split at h1
          · rename_i ha
            exact hd _ hl ha
          · cases h1
          · cases h1
        · exact i2 hl g hg hng

theorem copyWalk_deep {D0 D D' : Disk} {ws : List (List Str × List Str × List (Str × Bytes))}
    {ps : List (List Str)} (h : copyWalk D ws = .ok (D', ps)) (hd : Deep D0 D) :
    ∀ w ∈ ws, 2 ≤ w.1.length → ∀ g ∈ w.2.2, D0 (w.1 ++ [g.1]) ≠ some none → D0 w.1 = some none := by
  induction ws generalizing D D' ps with
  | nil => simp
  | cons w ws ih =>
    obtain ⟨at_, dirs, fs⟩ := w
    simp only [copyWalk] at h
    split at h
    · cases h
    · rename_i D1 h1
      split at h
      · cases h
      · rename_i D2 ps1 h2
        split at h
        · cases h
        · rename_i D3 ps2 h3
          obtain ⟨c1, c2⟩ := copyFiles_deep h2 (makeDirs_deep h1 hd)
          intro w hw
          rcases List.mem_cons.1 hw with rfl | hw
          · exact c2
          · exact ih h3 c1 w hw

/-- C60, a finding: directories below the first level are made in the wrong place, so copying raises
an exception as soon as one of them contains a file, unless it is already there. -/
theorem C60_deep (orig dest : Str) (F : Forest) (D : Disk) (hF : F.Ok) (p : List Str) (n : Str)
    (b : Bytes) (t : Int) (hf : FileAt F (p ++ [n]) b t) (hp : 2 ≤ p.length) (hD : D p ≠ some none)
    (hn : D (p ++ [n]) ≠ some none) : ∃ e, copydir orig dest F D = .error e := by
  cases hc : copydir orig dest F D with
  | error e => exact ⟨e, rfl⟩
  | ok r =>
    exfalso
    unfold copydir at hc
    split at hc
    · cases hc
    · rename_i D1 h1
      split at hc
      · cases hc
      · rename_i D2 ps h2
        have hd : Deep D D1 := by
          unfold makedirsp at h1
          split at h1
          · rw [← Except.ok.inj h1]; exact fun _ _ h => h
          · rw [if_pos rfl] at h1
            rw [← Except.ok.inj h1]
            intro q hq h
            rw [set_other] at h
            · exact h
            · rintro rfl; simp at hq
        have hmem : p ++ [n] ∈ F.paths := (mem_paths hF).2 ⟨b, t, hf⟩
        unfold Forest.paths at hmem
        obtain ⟨w, hw, hp'⟩ := List.mem_flatMap.1 hmem
        obtain ⟨g, hg, he⟩ := List.mem_map.1 hp'
        obtain ⟨h3, h4⟩ := List.append_inj' he rfl
        simp only [List.cons.injEq, and_true] at h4
        subst h3
        rw [← h4] at hn
        exact hD (copyWalk_deep h2 hd w hw hp g hg hn)

/-- C60 is false: a file three levels down. -/
theorem C60_full_fails : ¬ C60_full := by
  intro h
  let F : Forest := .dir "a".toList (.dir "b".toList (.file "f".toList [1] 0 .nil) .nil) .nil
  have hF : F.Ok := by
    simp only [F, Forest.Ok, IsName, Forest.names]
    decide
  obtain ⟨D, ps, h1, _⟩ := h [] [] F hF
  obtain ⟨e, he⟩ := C60_deep [] [] F (fun _ => none) hF ["a".toList, "b".toList] "f".toList [1] 0
    (.inside _ (.inside _ (.here _ _ _ _))) (by simp) (by simp) (by simp)
  rw [he] at h1
  cases h1

/-- The hypotheses are met by a tree with one level of directories and no destination. -/
example : Takes (.file "f".toList [1] 0 (.dir "a".toList (.file "g".toList [2] 0 .nil) .nil))
    (fun _ => none) := by
  refine ⟨.inl rfl, by simp, by simp, ?_⟩
  intro p n b t hp h
  exfalso
  have := (mem_paths (by simp only [Forest.Ok, IsName, Forest.names]; decide)).2 ⟨b, t, h⟩
  have hlen : ∀ q ∈ Forest.paths (.file "f".toList [1] 0 (.dir "a".toList (.file "g".toList [2] 0 .nil)
      .nil)), q.length ≤ 2 := by decide
  have := hlen _ this
  simp at this
  omega

example : ((copydir "o".toList "d".toList
    (.file "f".toList [1] 0 (.dir "a".toList (.file "g".toList [2] 0 .nil) .nil)) (fun _ => none)).map
      fun x => (x.1 ["a".toList, "g".toList], x.2)) =
    .ok (some (some [2]), [("o/f".toList, "d/f".toList), ("o/a/g".toList, "d/a/g".toList)]) := by
  decide +kernel

end Javatools
