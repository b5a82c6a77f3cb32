import Verif.Spec.Paths
import Verif.Model.Report
import Verif.Props.CreateJar
/- Paths: `join`, `normpath` and `relpath` against where paths lead. -/
namespace Javatools

open Spec

theorem splitAll_slash (a b : Str) :
    splitAll '/' (a ++ '/' :: b) = splitAll '/' a ++ splitAll '/' b := by
  induction a with
  | nil => simp [splitAll]
  | cons c a ih =>
    simp only [List.cons_append, splitAll]
    split
    · rw [ih]; rfl
    · rw [ih]
      cases h : splitAll '/' a with
      | nil => exact absurd h (splitAll_ne_nil _ _)
      | cons p ps => rfl

theorem splitAll_noslash (s : Str) : ∀ c ∈ splitAll '/' s, '/' ∉ c := by
  induction s with
  | nil => simp [splitAll]
  | cons x s ih =>
    simp only [splitAll]
    split
    · intro c hc
      rcases List.mem_cons.1 hc with rfl | hc
      · simp
      · exact ih c hc
    · rename_i hx
      cases h : splitAll '/' s with
      | nil => exact absurd h (splitAll_ne_nil _ _)
      | cons p ps =>
        rw [h] at ih
        intro c hc
        rcases List.mem_cons.1 hc with rfl | hc
        · simp only [List.mem_cons, not_or]
          exact ⟨fun e => hx e.symm, ih p (by simp)⟩
        · exact ih c (by simp [hc])

theorem step_nil (here : Place) : step here [] = here := by simp [step]

theorem place_join (here : Place) (a b : Str) :
    place here (pathJoin a b) = place (place here a) b := by
  unfold pathJoin
  by_cases hb : b.head? = some '/'
  · rw [if_pos hb]
    unfold place
    rw [if_pos hb, if_pos hb]
  · rw [if_neg hb]
    have hb' : place (place here a) b = (splitAll '/' b).foldl step (place here a) := by
      show (splitAll '/' b).foldl step (if b.head? = some '/' then [] else place here a) = _
      rw [if_neg hb]
    rw [hb']
    by_cases ha : a = []
    · subst ha
      rw [if_pos (.inl rfl)]
      simp [place, splitAll, step_nil, hb]
    · by_cases hl : a.getLast? = some '/'
      · rw [if_pos (.inr hl)]
        obtain ⟨a', rfl⟩ : ∃ a', a = a' ++ ['/'] := by
          obtain ⟨h1, h2⟩ := List.getLast?_eq_some_iff.1 hl
          exact ⟨h1, h2⟩
        unfold place
        have : (a' ++ ['/'] ++ b).head? = (a' ++ ['/']).head? := by cases a' <;> rfl
        rw [this, List.append_assoc, List.singleton_append, splitAll_slash, splitAll_slash,
          List.foldl_append, List.foldl_append]
        simp [splitAll, step_nil]
      · rw [if_neg (by simp [ha, hl])]
        unfold place
        have : (a ++ '/' :: b).head? = a.head? := by
          cases a with
          | nil => exact absurd rfl ha
          | cons => rfl
        rw [this, splitAll_slash, List.foldl_append]

/-- All parts of a place are names. -/
def Names (p : Place) : Prop := ∀ n ∈ p, IsName n

theorem names_step {p : Place} {c : Str} (h : Names p) (hc : '/' ∉ c) : Names (step p c) := by
  unfold step
  split
  · exact h
  · split
    · exact fun n hn => h n (List.dropLast_subset _ hn)
    · intro n hn
      rename_i h1 h2
      rcases List.mem_append.1 hn with hn | hn
      · exact h n hn
      · rw [List.mem_singleton] at hn
        subst hn
        exact ⟨fun e => h1 (.inl e), hc, fun e => h1 (.inr e), h2⟩

theorem names_foldl {p : Place} {cs : List Str} (h : Names p) (hc : ∀ c ∈ cs, '/' ∉ c) :
    Names (cs.foldl step p) := by
  induction cs generalizing p with
  | nil => exact h
  | cons c cs ih =>
    exact ih (names_step h (hc c (by simp))) fun c' h' => hc c' (by simp [h'])

theorem names_place {here : Place} (h : Names here) (p : Str) : Names (place here p) := by
  unfold place
  apply names_foldl _ (splitAll_noslash p)
  split
  · intro n hn; simp at hn
  · exact h

theorem normComps_abs (acc cs : List Str) (h : Names acc) (hc : ∀ c ∈ cs, '/' ∉ c) :
    normComps true acc cs = cs.foldl step acc.reverse := by
  induction cs generalizing acc with
  | nil => rfl
  | cons c cs ih =>
    have hcs : ∀ c ∈ cs, '/' ∉ c := fun x hx => hc x (by simp [hx])
    simp only [normComps, List.foldl_cons, step]
    by_cases h1 : c = [] ∨ c = ['.']
    · rw [if_pos h1, if_pos h1]
      exact ih acc h hcs
    · rw [if_neg h1, if_neg h1]
      by_cases h2 : c = ['.', '.']
      · rw [if_pos h2, if_neg]
        · rw [ih _ (fun n hn => h n (List.mem_of_mem_tail hn)) hcs]
          congr 1
          cases acc with
          | nil => rfl
          | cons a acc => simp
        · rintro (h3 | ⟨h3, _⟩ | h3)
          · exact h3 h2
          · simp at h3
          · cases acc with
            | nil => simp at h3
            | cons a acc =>
              simp only [List.head?_cons, Option.some.injEq] at h3
              exact (h a (by simp)).2.2.2 h3
      · rw [if_neg h2, if_pos (.inl h2), ih]
        · simp
        · intro n hn
          rcases List.mem_cons.1 hn with rfl | hn
          · exact ⟨fun e => h1 (.inl e), hc n (by simp), fun e => h1 (.inr e), h2⟩
          · exact h n hn
        · exact hcs

theorem split_names {p : Place} (h : Names p) :
    (splitAll '/' (slashed p)).filter (fun x => x ≠ []) = p := by
  by_cases hp : p = []
  · subst hp; simp [slashed, splitAll]
  · rw [split_plain hp h, List.filter_eq_self]
    intro n hn
    simpa using (h n hn).1

/-- An absolute path, normalised, names the place it leads to. -/
theorem normpath_abs {p : Str} (h : p.head? = some '/') :
    (normpath p).head? = some '/' ∧
      (splitAll '/' (normpath p)).filter (fun x => x ≠ []) = place [] p := by
  have hn : normComps true [] (splitAll '/' p) = place [] p := by
    rw [normComps_abs [] _ (by intro n hn; simp at hn) (splitAll_noslash p)]
    unfold place
    rw [if_pos h]
    rfl
  have hnm : Names (place [] p) := names_place (by intro n hn; simp at hn) p
  unfold normpath
  simp only [h, beq_self_eq_true, if_true, hn]
  split
  · rw [if_neg (by simp)]
    refine ⟨rfl, ?_⟩
    have : "//".toList ++ slashed (place [] p) = [] ++ '/' :: ([] ++ '/' :: slashed (place [] p)) := rfl
    rw [this, splitAll_slash, splitAll_slash, List.filter_append, List.filter_append, split_names hnm]
    rfl
  · rw [if_neg (by simp)]
    refine ⟨rfl, ?_⟩
    have : "/".toList ++ slashed (place [] p) = [] ++ '/' :: slashed (place [] p) := rfl
    rw [this, splitAll_slash, List.filter_append, split_names hnm]
    rfl

theorem abspath_place {cwd : Str} (h : cwd.head? = some '/') (p : Str) :
    (splitAll '/' (abspath cwd p)).filter (fun x => x ≠ []) = place (place [] cwd) p := by
  unfold abspath
  split
  · rename_i hp
    rw [(normpath_abs hp).2]
    unfold place
    rw [if_pos hp, if_pos hp]
  · have : (pathJoin cwd p).head? = some '/' := by
      unfold pathJoin
      split
      · assumption
      · cases cwd with
        | nil => simp at h
        | cons c cwd => split <;> simpa using h
    rw [(normpath_abs this).2, place_join]

theorem commonLen_take (a b : List Str) : a.take (commonLen a b) = b.take (commonLen a b) ∧
    commonLen a b ≤ a.length ∧ commonLen a b ≤ b.length := by
  induction a generalizing b with
  | nil => cases b <;> simp [commonLen]
  | cons x a ih =>
    cases b with
    | nil => simp [commonLen]
    | cons y b =>
      simp only [commonLen]
      split
      · rename_i h
        subst h
        obtain ⟨h1, h2, h3⟩ := ih b
        simp [h1, h2, h3]
      · simp

theorem foldl_up (p : Place) (k : Nat) :
    (List.replicate k ['.', '.']).foldl step p = p.take (p.length - k) := by
  induction k generalizing p with
  | zero => simp
  | succ k ih =>
    rw [List.replicate_succ, List.foldl_cons, ih]
    have : step p ['.', '.'] = p.dropLast := by simp [step]
    rw [this, List.dropLast_eq_take, List.take_take, List.length_take]
    congr 1
    omega

theorem foldl_down (p q : Place) (hq : Names q) : q.foldl step p = p ++ q := by
  induction q generalizing p with
  | nil => simp
  | cons n q ih =>
    have hn := hq n (by simp)
    have : step p n = p ++ [n] := by
      unfold step
      rw [if_neg (by rintro (e | e); exact hn.1 e; exact hn.2.2.1 e), if_neg hn.2.2.2]
    rw [List.foldl_cons, this, ih _ fun x hx => hq x (by simp [hx])]
    simp

/-- Parts that are neither empty nor have slashes, joined and read again. -/
theorem place_parts (here : Place) (c : Str) (cs : List Str) (h : ∀ x ∈ c :: cs, x ≠ [] ∧ '/' ∉ x) :
    place here (cs.foldl pathJoin c) = (c :: cs).foldl step here := by
  have hone : ∀ (p : Place) (x : Str), x ≠ [] → '/' ∉ x → place p x = step p x := by
    intro p x h1 h2
    unfold place
    rw [splitAll_no h2, if_neg]
    · rfl
    · intro e
      cases x with
      | nil => exact h1 rfl
      | cons y x =>
        simp only [List.head?_cons, Option.some.injEq] at e
        exact h2 (by simp [e])
  have key : ∀ (cs : List Str) (a : Str), (∀ x ∈ cs, x ≠ [] ∧ '/' ∉ x) →
      place here (cs.foldl pathJoin a) = cs.foldl step (place here a) := by
    intro cs
    induction cs with
    | nil => intro a _; rfl
    | cons x cs ih =>
      intro a hx
      rw [List.foldl_cons, List.foldl_cons, ih _ fun y hy => hx y (by simp [hy]), place_join,
        hone _ x (hx x (by simp)).1 (hx x (by simp)).2]
  rw [key cs c fun x hx => h x (by simp [hx]), List.foldl_cons,
    hone _ c (h c (by simp)).1 (h c (by simp)).2]

/-- `relpath` gives the way from the start to the path. -/
theorem relpath_place {cwd path start r : Str} (hc : cwd.head? = some '/')
    (h : relpath cwd path start = .ok r) :
    place (place (place [] cwd) start) r = place (place [] cwd) path := by
  unfold relpath at h
  split at h
  · cases h
  · simp only [abspath_place hc] at h
    have hroot : Names ([] : Place) := by intro n hn; simp at hn
    generalize hs : place (place [] cwd) start = sl at h ⊢
    generalize hp : place (place [] cwd) path = pl at h ⊢
    have hpn : Names pl := hp ▸ names_place (names_place hroot _) _
    obtain ⟨h1, h2, h3⟩ := commonLen_take sl pl
    generalize commonLen sl pl = i at h h1 h2 h3
    have goal : (List.replicate (sl.length - i) ['.', '.'] ++ pl.drop i).foldl step sl = pl := by
      have e : sl.length - (sl.length - i) = i := by omega
      rw [List.foldl_append, foldl_up, foldl_down _ _ fun n hn => hpn n (List.mem_of_mem_drop hn), e,
        h1, List.take_append_drop]
    split at h
    · rename_i e
      rw [e] at goal
      cases h
      have : place sl ['.'] = sl := by simp [place, splitAll, step]
      rw [this]
      exact goal
    · rename_i c cs e
      cases h
      rw [place_parts]
      · rw [← e]; exact goal
      · intro x hx
        rw [← e] at hx
        rcases List.mem_append.1 hx with hx | hx
        · obtain ⟨_, rfl⟩ := List.mem_replicate.1 hx
          decide
        · have := hpn x (List.mem_of_mem_drop hx)
          exact ⟨this.1, this.2.1⟩

/-- `relpath` raises only for the empty path. -/
theorem relpath_ok (cwd : Str) {path start : Str} (h : path ≠ []) : ∃ r, relpath cwd path start = .ok r := by
  unfold relpath
  rw [if_neg h]
  simp only
  split <;> exact ⟨_, rfl⟩

/-- A path of names leads down. -/
theorem place_slashed (here : Place) {q : List Str} (hq : q ≠ []) (hn : Names q) :
    place here (slashed q) = here ++ q := by
  unfold place
  rw [if_neg (slashed_head hq hn).2, split_plain hq hn, foldl_down _ _ hn]

end Javatools
