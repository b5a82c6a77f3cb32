import Verif.Props.Report

/-! For exactly which entries the reports on two JARs do not get in each other's way, C113. -/

namespace Javatools

open Spec

/-- C113, for exactly which entries: of those that are relative and do not go up, the reports are apart just when the
entries lead to different places, and no entry leads to or below the report on the JAR or that on a class. -/
theorem C113_exact (here : Place) (rep : Reporter) (classes : List Str) (he : rep.entry = "JarReport".toList)
    (hf : rep.formats.Nodup) (hne : rep.formats ≠ []) (hi : ∀ e ∈ classes, Inside e) :
    Apart here (jarReporters rep classes) ↔
    (classes.map (place [])).Nodup ∧ ∀ e ∈ classes, ∀ g ∈ rep.formats,
      ¬ ["JarReport".toList ++ g.extension] <+: place [] e ∧
      ∀ e' ∈ classes, ¬ place [] e' ++ ["JavaClassReport".toList ++ g.extension] <+: place [] e := by
  have hname : ∀ r ∈ jarReporters rep classes, ReportName r.entry := by
    intro r hr
    rcases (jar_reporter here rep classes hi hr).2 with ⟨h, _⟩ | rfl
    · rw [h]; exact reportName_class
    · rw [he]; exact reportName_jar
  have hself : rep ∈ jarReporters rep classes := by simp [jarReporters]
  have hsub : ∀ e ∈ classes, rep.subreporter e "JavaClassReport".toList ∈ jarReporters rep classes := by
    intro e h
    exact List.mem_append_left _ (List.mem_map_of_mem h)
  constructor
  · rintro ⟨h1, h2⟩
    have hfile : ∀ r ∈ jarReporters rep classes, ∀ g ∈ rep.formats, ∀ r' ∈ jarReporters rep classes,
        ¬ place here r.basedir ++ [r.entry ++ g.extension] <+: place here r'.basedir := by
      intro r hr g hg r' hr' hp
      have hm : place here r.basedir ++ [r.entry ++ g.extension] ∈ r.files.map (place here) := by
        rw [C112_where here (hname r hr)]
        exact List.mem_map.2 ⟨g, (jar_reporter here rep classes hi hr).1 ▸ hg, rfl⟩
      obtain ⟨f, hf1, hf2⟩ := List.mem_map.1 hm
      exact h2 r hr f hf1 r' hr' (hf2 ▸ hp)
    refine ⟨?_, fun e h g hg => ⟨fun hp => ?_, fun e' h' hp => ?_⟩⟩
    · obtain ⟨g, hg⟩ := List.exists_mem_of_ne_nil _ hne
      have h3 := (List.pairwise_flatMap.1 h1).2
      have h4 := (List.pairwise_append.1 h3).1
      rw [List.pairwise_map] at h4
      rw [List.Nodup, List.pairwise_map]
      refine List.Pairwise.imp_of_mem ?_ h4
      intro a b ha hb hab hpl
      have hm : ∀ c ∈ classes, place here rep.basedir ++ place [] c ++ ["JavaClassReport".toList ++ g.extension] ∈
          (rep.subreporter c "JavaClassReport".toList).files.map (place here) := by
        intro c hc
        rw [C112_where here (hname _ (hsub c hc)), ← class_basedir here rep (hi c hc)]
        exact List.mem_map.2 ⟨g, hg, rfl⟩
      exact hab _ (hm a ha) _ (hm b hb) (by rw [hpl])
    · refine hfile _ hself g hg _ (hsub e h) ?_
      rw [class_basedir here rep (hi e h), he]
      exact List.prefix_append_right_inj _ |>.2 hp
    · refine hfile _ (hsub e' h') g hg _ (hsub e h) ?_
      rw [class_basedir here rep (hi e h), class_basedir here rep (hi e' h'), List.append_assoc]
      exact List.prefix_append_right_inj _ |>.2 hp
  · rintro ⟨h1, h2⟩
    refine ⟨files_nodup here _ hname ?_ (jar_pairwise here rep classes he hi h1), ?_⟩
    · intro r hr
      rw [(jar_reporter here rep classes hi hr).1]
      exact hf
    · intro r hr f hfile r' hr' hp
      have := List.mem_map_of_mem (f := place here) hfile
      rw [C112_where here (hname r hr)] at this
      obtain ⟨g, hg, e⟩ := List.mem_map.1 this
      rw [(jar_reporter here rep classes hi hr).1] at hg
      rw [← e] at hp
      have hlong : ∀ a : Place, ¬ place here rep.basedir ++ a ++ [r.entry ++ g.extension] <+: place here rep.basedir := by
        intro a hp
        have := hp.length_le
        simp only [List.length_append, List.length_singleton] at this
        omega
      rcases (jar_reporter here rep classes hi hr).2 with ⟨hn, c, hc, h⟩ | hrep
      · rw [h] at hp
        rcases (jar_reporter here rep classes hi hr').2 with ⟨_, c', hc', h'⟩ | rfl
        · rw [h', hn, List.append_assoc] at hp
          exact (h2 c' hc' g hg).2 c hc ((List.prefix_append_right_inj _).1 hp)
        · exact hlong _ hp
      · rcases (jar_reporter here rep classes hi hr').2 with ⟨_, c', hc', h'⟩ | rfl
        · rw [h', hrep, he] at hp
          exact (h2 c' hc' g hg).1 ((List.prefix_append_right_inj _).1 hp)
        · rw [hrep] at hp hlong
          exact hlong [] (by simpa using hp)

/-- A directory named like a report on the JAR gets in the way only if such a report is written. -/
example : ∀ fmt : Fmt, Apart [] (jarReporters
    { basedir := "rep".toList, entry := "JarReport".toList, formats := [fmt] }
    ["JarReport.html/X.class".toList, "Y.class".toList]) ↔ fmt ≠ .html := by
  intro fmt
  rw [C113_exact _ _ _ rfl (by simp) (by simp) (by unfold Inside; decide)]
  cases fmt <;> decide

end Javatools
