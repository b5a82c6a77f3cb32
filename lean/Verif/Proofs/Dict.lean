import Verif.Model.Base
/-
Lemmas about the dictionary model.
-/
namespace Javatools
namespace PyDict
variable {κ ν : Type} [DecidableEq κ]

theorem get?_set (d : PyDict κ ν) (k k' : κ) (v : ν) :
    (d.set k v).get? k' = if k = k' then some v else d.get? k' := by
  induction d with
  | nil => simp [PyDict.set, PyDict.get?]
  | cons p d ih =>
    obtain ⟨a, b⟩ := p
    simp only [PyDict.set]
    by_cases h : a = k
    · subst h; simp only [if_true, PyDict.get?]
      by_cases h2 : a = k' <;> simp [h2]
    · simp only [if_neg h, PyDict.get?, ih]
      by_cases h2 : a = k'
      · subst h2
        have : ¬ k = a := fun e => h e.symm
        simp [this]
      · simp [h2]

theorem get?_foldl (ps : List (κ × ν)) (d : PyDict κ ν) (k : κ) :
    PyDict.get? (ps.foldl (fun d p => set d p.1 p.2) d) k =
      match ((ps.filter (fun p => decide (p.1 = k))).getLast?).map Prod.snd with
      | some v => some v
      | none => d.get? k := by
  induction ps generalizing d with
  | nil => rfl
  | cons p ps ih =>
    simp only [List.foldl_cons]
    rw [ih, get?_set]
    by_cases h : p.1 = k
    · rw [List.filter_cons_of_pos (by simpa using h)]
      cases hl : ps.filter (fun p => decide (p.1 = k)) with
      | nil => simp [h]
      | cons q qs => simp [List.getLast?_cons]
    · rw [List.filter_cons_of_neg (by simpa using h)]
      simp [h]

/-- Looking up a key in a dict built by assignments finds the last assignment. -/
theorem get?_ofPairs (ps : List (κ × ν)) (k : κ) :
    PyDict.get? (ofPairs ps) k =
      ((ps.filter (fun p => decide (p.1 = k))).getLast?).map Prod.snd := by
  unfold ofPairs
  rw [get?_foldl]
  cases ((ps.filter (fun p => decide (p.1 = k))).getLast?).map Prod.snd <;> rfl

theorem get?_isSome_iff (d : PyDict κ ν) (k : κ) : (d.get? k).isSome ↔ k ∈ d.keys := by
  induction d with
  | nil => simp [get?, keys]
  | cons p d ih =>
    obtain ⟨a, b⟩ := p
    by_cases h : a = k
    · simp [get?, keys, h]
    · simp only [get?, if_neg h, ih, keys, List.map_cons, List.mem_cons]
      constructor
      · exact Or.inr
      · rintro (h1 | h1)
        · exact absurd h1.symm h
        · exact h1

theorem get?_eq_none_iff (d : PyDict κ ν) (k : κ) : d.get? k = none ↔ k ∉ d.keys := by
  rw [← get?_isSome_iff]; cases d.get? k <;> simp

theorem mem_of_get? {d : PyDict κ ν} {k : κ} {v : ν} (h : d.get? k = some v) : (k, v) ∈ d := by
  induction d with
  | nil => simp [get?] at h
  | cons p d ih =>
    obtain ⟨a, b⟩ := p
    simp only [get?] at h
    split at h
    · simp only [Option.some.injEq] at h; subst_vars; simp
    · simp [ih h]

theorem keys_set (d : PyDict κ ν) (k : κ) (v : ν) :
    (d.set k v).keys = if k ∈ d.keys then d.keys else d.keys ++ [k] := by
  induction d with
  | nil => simp [set, keys]
  | cons p d ih =>
    obtain ⟨a, b⟩ := p
    simp only [set]
    by_cases h : a = k
    · subst h; simp [keys]
    · simp only [if_neg h, keys, List.map_cons, List.mem_cons] at ih ⊢
      rw [ih]
      have hk : k ≠ a := fun e => h e.symm
      by_cases h2 : k ∈ d.map Prod.fst <;> simp [h2, hk]

theorem nodup_keys_set (d : PyDict κ ν) (k : κ) (v : ν) (h : d.keys.Nodup) :
    (d.set k v).keys.Nodup := by
  rw [keys_set]
  split
  · exact h
  · rename_i hk
    rw [List.nodup_append]
    refine ⟨h, by simp, ?_⟩
    intro a ha b hb
    simp only [List.mem_singleton] at hb
    subst hb
    intro e; subst e; exact hk ha

theorem nodup_keys_foldl (ps : List (κ × ν)) (d : PyDict κ ν) (h : d.keys.Nodup) :
    (PyDict.keys (ps.foldl (fun d p => set d p.1 p.2) d)).Nodup := by
  induction ps generalizing d with
  | nil => exact h
  | cons p ps ih => exact ih _ (nodup_keys_set d p.1 p.2 h)

/-- A dict built by assignments never holds a key twice. -/
theorem nodup_keys_ofPairs (ps : List (κ × ν)) : (ofPairs ps : PyDict κ ν).keys.Nodup :=
  nodup_keys_foldl ps [] (by simp [keys])

theorem set_of_not_mem (d : PyDict κ ν) (k : κ) (v : ν) (h : k ∉ d.keys) :
    d.set k v = d ++ [(k, v)] := by
  induction d with
  | nil => rfl
  | cons p d ih =>
    obtain ⟨a, b⟩ := p
    simp only [keys, List.map_cons, List.mem_cons, not_or] at h
    have : ¬ a = k := fun e => h.1 e.symm
    simp only [set, if_neg this, List.cons_append, List.cons.injEq, true_and]
    exact ih h.2

theorem foldl_set_nodup (ps : List (κ × ν)) (d : PyDict κ ν)
    (h : (d ++ ps).map Prod.fst |>.Nodup) :
    ps.foldl (fun d p => set d p.1 p.2) d = d ++ ps := by
  induction ps generalizing d with
  | nil => simp
  | cons p ps ih =>
    simp only [List.foldl_cons]
    have hk : p.1 ∉ d.keys := by
      simp only [List.map_append, List.map_cons] at h
      intro hm
      have := (List.nodup_append.1 h).2.2 p.1 hm p.1 (by simp)
      exact this rfl
    rw [set_of_not_mem d p.1 p.2 hk, ih]
    · simp
    · simpa using h

/-- With distinct keys the dict lists exactly the pairs. -/
theorem ofPairs_of_nodup (ps : List (κ × ν)) (h : (ps.map Prod.fst).Nodup) :
    (ofPairs ps : PyDict κ ν) = ps := by
  unfold ofPairs
  rw [foldl_set_nodup ps [] (by simpa using h)]
  simp

theorem get?_of_mem_nodup {d : PyDict κ ν} (hd : d.keys.Nodup) {k : κ} {v : ν} (h : (k, v) ∈ d) :
    d.get? k = some v := by
  induction d with
  | nil => simp at h
  | cons p d ih =>
    obtain ⟨a, b⟩ := p
    simp only [keys, List.map_cons, List.nodup_cons] at hd
    rcases List.mem_cons.1 h with h | h
    · simp only [Prod.mk.injEq] at h
      simp [get?, h.1, h.2]
    · have : a ≠ k := by
        intro e; subst e
        exact hd.1 (List.mem_map.2 ⟨_, h, rfl⟩)
      simp only [get?, if_neg this]
      exact ih hd.2 h

end PyDict
end Javatools
