import Verif.Props.Report

/-! C112: for exactly which entries the reports stay in the report directory. -/

namespace Javatools

open Spec

/-- Following the parts from a place that is so many levels below a directory does not lead out of it on the way. -/
def Stays : Nat → List Str → Prop
  | _, [] => True
  | d, c :: cs =>
    if c = [] ∨ c = ['.'] then Stays d cs
    else if c = ['.', '.'] then ∃ n, d = n + 1 ∧ Stays n cs
    else Stays (d + 1) cs

theorem stays_below (base : Place) : ∀ (cs : List Str) (b : Place), Stays b.length cs →
    base <+: cs.foldl step (base ++ b) := by
  intro cs
  induction cs with
  | nil => intro b _; exact List.prefix_append _ _
  | cons c cs ih =>
    intro b h
    rw [List.foldl_cons]
    unfold Stays at h
    unfold step
    by_cases h1 : c = [] ∨ c = ['.']
    · rw [if_pos h1] at h ⊢
      exact ih b h
    · rw [if_neg h1] at h ⊢
      by_cases h2 : c = ['.', '.']
      · rw [if_pos h2] at h ⊢
        obtain ⟨n, h3, h4⟩ := h
        have hb : b ≠ [] := by rintro rfl; simp at h3
        rw [List.dropLast_append_of_ne_nil hb]
        refine ih _ ?_
        rw [List.length_dropLast, h3]
        exact h4
      · rw [if_neg h2] at h ⊢
        rw [List.append_assoc]
        refine ih _ ?_
        rw [List.length_append]
        exact h

theorem mem_steps {n : Str} : ∀ (cs : List Str) (b : Place), n ∈ cs.foldl step b → n ∈ b ∨ n ∈ cs := by
  intro cs
  induction cs with
  | nil => intro b h; exact .inl h
  | cons c cs ih =>
    intro b h
    rw [List.foldl_cons] at h
    rcases ih _ h with h | h
    · unfold step at h
      split at h
      · exact .inl h
      split at h
      · exact .inl ((List.dropLast_sublist _).subset h)
      · rcases List.mem_append.1 h with h | h
        · exact .inl h
        · rw [List.mem_singleton] at h; subst h; exact .inr (List.mem_cons_self ..)
    · exact .inr (List.mem_cons_of_mem _ h)

theorem below_stays {n : Str} : ∀ (cs : List Str) (b : Place), n ∉ cs →
    [n] <+: cs.foldl step ([n] ++ b) → Stays b.length cs := by
  intro cs
  induction cs with
  | nil => intros; trivial
  | cons c cs ih =>
    intro b hn h
    simp only [List.mem_cons, not_or] at hn
    rw [List.foldl_cons] at h
    unfold Stays
    unfold step at h
    by_cases h1 : c = [] ∨ c = ['.']
    · rw [if_pos h1] at h ⊢
      exact ih b hn.2 h
    · rw [if_neg h1] at h ⊢
      by_cases h2 : c = ['.', '.']
      · rw [if_pos h2] at h ⊢
        cases b with
        | nil =>
          have hm := h.subset (List.mem_cons_self ..)
          rcases mem_steps _ _ hm with e | e
          · simp at e
          · exact absurd e hn.2
        | cons x b =>
          rw [List.dropLast_append_of_ne_nil (by simp)] at h
          have := ih _ hn.2 h
          rw [List.length_dropLast] at this
          exact ⟨_, rfl, this⟩
      · rw [if_neg h2] at h ⊢
        rw [List.append_assoc] at h
        have := ih _ hn.2 h
        rwa [List.length_append] at this

theorem fresh_name (cs : List Str) : ∃ n : Str, n ∉ cs := by
  have : ∃ N, ∀ c ∈ cs, c.length ≤ N := by
    induction cs with
    | nil => exact ⟨0, by simp⟩
    | cons c cs ih =>
      obtain ⟨N, h⟩ := ih
      refine ⟨c.length + N, fun x hx => ?_⟩
      rcases List.mem_cons.1 hx with rfl | hx
      · omega
      · have := h x hx; omega
  obtain ⟨N, h⟩ := this
  refine ⟨List.replicate (N + 1) 'a', fun hm => ?_⟩
  have := h _ hm
  rw [List.length_replicate] at this
  omega

/-- C112, exactly: whatever the report directory is, the reports on a JAR are in it, if and only if the reported
entries are relative and no initial part of them leads out of the directory. -/
theorem C112_exact (rep : Reporter) (classes : List Str) (hr : ReportName rep.entry) (hf : rep.formats ≠ []) :
    (∀ (here : Place) (dir : Str), ∀ r' ∈ jarReporters { rep with basedir := dir } classes, ∀ f ∈ r'.files,
      Below (place here dir) (place here f)) ↔
    ∀ e ∈ classes, e.head? ≠ some '/' ∧ Stays 0 (splitAll '/' e) := by
  constructor
  · intro h e he
    obtain ⟨fm, hfm⟩ := List.exists_mem_of_ne_nil _ hf
    obtain ⟨n, hn⟩ := fresh_name (("JavaClassReport".toList ++ fm.extension) :: splitAll '/' e)
    simp only [List.mem_cons, not_or] at hn
    have hbase : place [n] [] = [n] := rfl
    have hin : place (place [n] []) e ++ ["JavaClassReport".toList ++ fm.extension] ∈
        (({ rep with basedir := [] } : Reporter).subreporter e "JavaClassReport".toList).files.map (place [n]) := by
      rw [C112_class]
      exact List.mem_map.2 ⟨fm, hfm, rfl⟩
    obtain ⟨f, hff, hfe⟩ := List.mem_map.1 hin
    have hb := h [n] [] _ (List.mem_append_left _ (List.mem_map_of_mem he)) f hff
    rw [hfe, hbase] at hb
    have hb' : [n] <+: place [n] e := by
      rcases List.prefix_concat_iff.1 hb with e1 | e1
      · cases hp : place [n] e with
        | nil => rw [hp] at e1; simp only [List.nil_append, List.cons.injEq, and_true] at e1; exact absurd e1 hn.1
        | cons x xs => rw [hp] at e1; simp at e1
      · exact e1
    unfold place at hb'
    by_cases ha : e.head? = some '/'
    · rw [if_pos ha] at hb'
      rcases mem_steps _ _ (hb'.subset (List.mem_cons_self ..)) with e1 | e1
      · simp at e1
      · exact absurd e1 hn.2
    · rw [if_neg ha] at hb'
      exact ⟨ha, below_stays _ [] hn.2 hb'⟩
  · intro h here dir r' hr' f hf'
    have hmem := List.mem_map_of_mem (f := place here) hf'
    rcases List.mem_append.1 hr' with h1 | h1
    · obtain ⟨e, he, rfl⟩ := List.mem_map.1 h1
      rw [C112_class] at hmem
      obtain ⟨fm, -, hfm⟩ := List.mem_map.1 hmem
      rw [← hfm]
      obtain ⟨h2, h3⟩ := h e he
      refine List.IsPrefix.trans ?_ (List.prefix_append _ _)
      show place here dir <+: place (place here dir) e
      conv => rhs; unfold place
      rw [if_neg h2]
      have := stays_below (place here dir) _ [] h3
      rwa [List.append_nil] at this
    · rw [List.mem_singleton] at h1
      subst h1
      rw [C112_where here (r := { rep with basedir := dir }) hr] at hmem
      obtain ⟨fm, -, hfm⟩ := List.mem_map.1 hmem
      rw [← hfm]
      exact List.prefix_append _ _

/-- `a/../X.class` goes up but stays, which `C112_partial` leaves open; `a/../../X.class` does not. -/
example : ("a/../X.class".toList.head? ≠ some '/' ∧ Stays 0 (splitAll '/' "a/../X.class".toList)) ∧
    ¬ Inside "a/../X.class".toList ∧ ¬ Stays 0 (splitAll '/' "a/../../X.class".toList) := by
  have h1 : splitAll '/' "a/../X.class".toList = [['a'], ['.', '.'], "X.class".toList] := by decide +kernel
  have h2 : splitAll '/' "a/../../X.class".toList = [['a'], ['.', '.'], ['.', '.'], "X.class".toList] := by
    decide +kernel
  refine ⟨⟨by decide, ?_⟩, fun h => h.2 (by rw [h1]; simp), ?_⟩
  · rw [h1]; simp [Stays]
  · rw [h2]; simp [Stays]

end Javatools
