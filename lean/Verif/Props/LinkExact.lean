import Verif.Props.Report

/-! For exactly which entries the links to their reports lead there, C115. -/

namespace Javatools

open Spec

theorem splitAll_count (s : Str) : (splitAll '/' s).length = s.count '/' + 1 := by
  induction s with
  | nil => rfl
  | cons c s ih =>
    by_cases hc : c = '/'
    · subst hc; simp [splitAll, ih]
    · simp only [splitAll, if_neg hc]
      rw [List.count_cons_of_ne (Ne.symm (Ne.symm hc)), ← ih]
      cases hsp : splitAll '/' s with
      | nil => rw [hsp] at ih; simp at ih
      | cons a l => rfl

theorem foldl_step_length (l : List Str) (p : Place) : (l.foldl step p).length ≤ p.length + l.length := by
  induction l generalizing p with
  | nil => simp
  | cons c l ih =>
    have h1 : (step p c).length ≤ p.length + 1 := by
      unfold step
      split
      · omega
      · split
        · simp; omega
        · simp
    have := ih (step p c)
    simp only [List.foldl_cons, List.length_cons]
    omega

theorem place_length (here : Place) (s : Str) : (place here s).length ≤ here.length + (s.count '/' + 1) := by
  unfold place
  rw [← splitAll_count]
  refine Nat.le_trans (foldl_step_length _ _) ?_
  split <;> simp

theorem takeWhile_holds {q : Char → Bool} {s : Str} {x : Char} (h : x ∈ s.takeWhile q) : q x = true := by
  induction s with
  | nil => simp at h
  | cons c s ih =>
    rw [List.takeWhile_cons] at h
    split at h
    · rename_i hq
      rcases List.mem_cons.1 h with rfl | h
      · exact hq
      · exact ih h
    · simp at h

theorem takeWhile_slash (e t : Str) :
    (e ++ '/' :: t).takeWhile (fun c => c ≠ '/') = e.takeWhile (fun c => c ≠ '/') := by
  induction e with
  | nil => simp
  | cons c e ih => by_cases hc : c = '/' <;> simp_all

/-- C115, for exactly which entries: of those that are names with slashes in between, without `%` and `&`, the link
leads to the report unless there is a `#`, `?` or `"`, or a `:` in the first name. -/
theorem C115_exact (here : Place) (r : Reporter) (p : List Str) (name : Str) (hp : p ≠ []) (hnames : ∀ n ∈ p, IsName n)
    (hn : ReportName name) (hname : ∀ c ∈ name, c ∉ linkSpecial) (hpc : '%' ∉ slashed p) (ham : '&' ∉ slashed p) :
    follow (place here r.basedir) (attrValue (detailsHref (slashed p) name)) =
      some (htmlPlace here (r.subreporter (slashed p) name)) ↔
    '#' ∉ slashed p ∧ '?' ∉ slashed p ∧ '"' ∉ slashed p ∧ ':' ∉ (slashed p).takeWhile (fun c => c ≠ '/') := by
  have hpath := C115_path here r (slashed p) name (slashed_head hp hnames).1 hn
  have hplace := place_slashed (place here r.basedir) hp hnames
  have hcount : (slashed p).count '/' + 1 = p.length := by
    rw [← splitAll_count, split_plain hp hnames]
  have htarget : htmlPlace here (r.subreporter (slashed p) name) =
      place here r.basedir ++ p ++ [name ++ Fmt.html.extension] := by
    simp only [htmlPlace, Reporter.subreporter, place_join, hplace]
  have hhead := (slashed_head hp hnames).2
  have hne := (slashed_head hp hnames).1
  generalize he : slashed p = e at *
  generalize hb : place here r.basedir = base at *
  have hs : detailsHref e name = e ++ '/' :: (name ++ ".html".toList) := by simp [detailsHref]
  rw [hs] at hpath ⊢
  have hrest : ∀ c ∈ linkSpecial, c ∉ '/' :: (name ++ ".html".toList) := by
    have hx : ∀ c ∈ linkSpecial, c ∉ ".html".toList := by decide
    have hy : ∀ c ∈ linkSpecial, c ≠ '/' := by decide
    intro c hc hm
    rcases List.mem_cons.1 hm with h | h
    · exact hy c hc h
    · rcases List.mem_append.1 h with h | h
      · exact hname c h hc
      · exact hx c hc h
  generalize ht : '/' :: (name ++ ".html".toList) = t at *
  have hno : ∀ c ∈ linkSpecial, c ∉ e → c ∉ e ++ t := fun c hc h hm =>
    (List.mem_append.1 hm).elim h (hrest c hc)
  have hA : attrValue (e ++ t) = (e ++ t).takeWhile (fun c => c ≠ '"') := by
    unfold attrValue
    refine htmlText_plain _ fun h => hno '&' (by decide) ham ((List.takeWhile_sublist _).subset h)
  have htake : (e ++ t).takeWhile (fun c => c ≠ '/') = e.takeWhile (fun c => c ≠ '/') := by
    rw [← ht]; exact takeWhile_slash e _
  rw [hA]
  constructor
  · intro h
    have hbad : ∀ x ∈ ['#', '?', '"'], x ∉ e := by
      intro x hx hxe
      unfold follow at h
      simp only at h
      split at h
      · cases h
      · split at h
        · cases h
        · generalize hF : ((((e ++ t).takeWhile (fun c => c ≠ '"')).takeWhile (fun c => c ≠ '#')).takeWhile
            (fun c => c ≠ '?')) = F at h
          have hpre : F <+: e ++ t := by
            rw [← hF]
            exact ((List.takeWhile_prefix _).trans (List.takeWhile_prefix _)).trans (List.takeWhile_prefix _)
          have hnot : x ∉ F := by
            intro hm
            rw [← hF] at hm
            have m1 := takeWhile_holds hm
            have hm2 := (List.takeWhile_sublist _).subset hm
            have m2 := takeWhile_holds hm2
            have m3 := takeWhile_holds ((List.takeWhile_sublist _).subset hm2)
            simp only [decide_eq_true_eq] at m1 m2 m3
            simp only [List.mem_cons, List.not_mem_nil, or_false] at hx
            rcases hx with rfl | rfl | rfl
            · exact m2 rfl
            · exact m1 rfl
            · exact m3 rfl
          have hFe : F <+: e := by
            rcases List.prefix_or_prefix_of_prefix hpre (List.prefix_append e t) with h1 | h1
            · exact h1
            · exact absurd (h1.subset hxe) hnot
          rw [percentDecode_plain _ (fun hm => hpc (hFe.subset hm))] at h
          have hl := place_length base F
          have hc : F.count '/' ≤ e.count '/' := hFe.sublist.count_le _
          rw [Option.some.inj h, htarget] at hl
          simp only [List.length_append, List.length_singleton] at hl
          omega
    refine ⟨hbad _ (by simp), hbad _ (by simp), hbad _ (by simp), fun hc => ?_⟩
    rw [takeWhile_no (hno '"' (by decide) (hbad _ (by simp)))] at h
    unfold follow at h
    rw [takeWhile_no (hno '#' (by decide) (hbad _ (by simp)))] at h
    simp only at h
    rw [if_pos (by rw [htake]; exact hc)] at h
    cases h
  · rintro ⟨h1, h2, h3, h4⟩
    rw [takeWhile_no (hno '"' (by decide) h3)]
    unfold follow
    rw [takeWhile_no (hno '#' (by decide) h1)]
    simp only
    rw [if_neg (by rw [htake]; exact h4), if_neg, takeWhile_no (hno '?' (by decide) h2),
      percentDecode_plain _ (hno '%' (by decide) hpc), hpath]
    intro hpre
    rw [List.isPrefixOf_iff_prefix] at hpre
    cases e with
    | nil => exact hne rfl
    | cons c e =>
      obtain ⟨w, hw⟩ := hpre
      have : some '/' = some c := by
        have := congrArg List.head? hw
        simpa using this
      exact hhead (by simp [← this])

/-- The colon matters in the first name only. -/
example : follow (place [] "rep".toList) (attrValue (detailsHref "a/b:c.class".toList "JavaClassReport".toList)) =
    some ["rep".toList, "a".toList, "b:c.class".toList, "JavaClassReport.html".toList] := by
  have := (C115_exact [] { basedir := "rep".toList, entry := "JarReport".toList } ["a".toList, "b:c.class".toList]
    "JavaClassReport".toList (by decide) (by unfold IsName; decide) reportName_class (by decide) (by decide) (by decide)).2 (by decide)
  exact this.trans (by decide)

example : ¬ follow (place [] "rep".toList) (attrValue (detailsHref "b:c.class".toList "JavaClassReport".toList)) =
    some ["rep".toList, "b:c.class".toList, "JavaClassReport.html".toList] := by
  have := (C115_exact [] { basedir := "rep".toList, entry := "JarReport".toList } ["b:c.class".toList]
    "JavaClassReport".toList (by decide) (by unfold IsName; decide) reportName_class (by decide) (by decide)
    (by decide)).1
  exact fun h => absurd (this (h.trans (by decide))) (by decide)

end Javatools
