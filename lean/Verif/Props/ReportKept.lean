import Verif.Props.ReportMain
/-
C143, continued: what has been written stays when a later class cannot be compared or reported.
-/
namespace Javatools
variable (P : ReportEnv)

theorem reportLoop_append (s : Change.ShowOpts) (R : Reporter) (o : DiffOpts)
    (xs ys : List (Change DiffOpts)) (b : Bool) {q : List (Change DiffOpts) × Bool}
    (h : (reportLoop P s R o xs b).2 = .ok q) :
    (reportLoop P s R o (xs ++ ys) b).1 =
      (reportLoop P s R o xs b).1 ++ (reportLoop P s R o ys q.2).1 := by
  induction xs generalizing b q with
  | nil =>
    simp only [reportLoop, Except.ok.injEq] at h
    subst h
    rfl
  | cons x xs ih =>
    simp only [List.cons_append, reportLoop] at h ⊢
    cases hx : x.check with
    | error e => simp [hx] at h
    | ok x' =>
      simp only [hx] at h ⊢
      generalize (if isReported x then subReport P s R o x' else ([], none)) = sub at h ⊢
      obtain ⟨w, _ | e⟩ := sub
      · simp only at h ⊢
        cases hl : reportLoop P s R o xs (b || x'.isChange) with
        | mk w1 y =>
          cases y with
          | error e => simp [hl] at h
          | ok q1 =>
            obtain ⟨xs', c'⟩ := q1
            simp only [hl, Except.ok.injEq] at h
            subst h
            have := ih (b || x'.isChange) (q := (xs', c')) (by rw [hl])
            rw [hl] at this
            simp only at this
            cases hz : reportLoop P s R o (xs ++ ys) (b || x'.isChange) with
            | mk w2 z =>
              rw [hz] at this
              simp only at this
              cases z <;> simp [this]
      · simp at h

/-- C143: of the classes in the order of the comparison, if the first ones could be compared and
reported, their reports are written whatever happens to the later ones. -/
theorem C143_kept {R : Reporter} {dir : Str} {F : List Fmt} (hR : Fresh R dir "JarReport" F)
    (hF : F.Nodup) (o : DiffOpts) (s : Change.ShowOpts) (E : JarEnv) (l r : Archive)
    {xs ys : List (Change DiffOpts)} (hc : jarContentsChildren E l r = .ok (xs ++ ys))
    {q : List (Change DiffOpts) × Bool} (h : (reportLoop P s R o xs false).2 = .ok q) :
    ∃ w w', (jarReportRun P s R E o l r).1 = w ++ w' ∧
      ClassReports P o s E l r dir F (reportedEntries xs) w := by
  obtain ⟨t, ht, -⟩ := jarTypeChange_check l r
  obtain ⟨evs, -, hperm⟩ := children_entries hc
  have hx : ClassReports P o s E l r dir F (reportedEntries xs) (reportLoop P s R o xs false).1 := by
    rcases reportLoop_or P hR hF o s E l r xs (fun x hx => by
      obtain ⟨p, -, hp⟩ := List.mem_map.1 (hperm.mem_iff.1 (List.mem_append_left ys hx))
      exact ⟨p, hp.symm⟩) false with ⟨_, _, _, h3⟩ | ⟨e, h1, _⟩
    · exact h3
    · rw [h] at h1; simp at h1
  have happ := reportLoop_append P s R o xs ys false h
  unfold jarReportRun
  rw [ht]
  simp only [hc]
  cases hl : reportLoop P s R o (xs ++ ys) false with
  | mk w y =>
    rw [hl] at happ
    simp only at happ
    subst happ
    cases y with
    | error e => exact ⟨_, _, rfl, hx⟩
    | ok p =>
      simp only
      exact ⟨_, _, by rw [List.append_assoc], hx⟩

/-! ## Example -/

/-- Two archives with two classes each, of which the second is broken in one. -/
def brokenSecond : DiffWorld :=
  { demoWorld with jar := fun n => .ok (zipOf false
      [("X.class".toList, (tinyClass (if n = "a".toList then 1 else 0)).enc),
       ("Y.class".toList, if n = "a".toList then [1] else (tinyClass 0).enc)]) }

set_option synthInstance.maxSize 1000

/-- The report of the first class stays; there is none of the second and none of the archives. -/
example : (reportMain (fun _ => false) (fun _ => false) brokenSecond demoReports .jardiff
      (["-q", "a", "b", "--report", "html"].map String.toList)).files.map (·.1) =
    [.file "./X.class/JavaClassReport.html".toList] := by
  decide +kernel

end Javatools
