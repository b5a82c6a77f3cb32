import Verif.Props.ClassDiff
import Verif.Props.Change

/-! For exactly which classes the comparison with themselves finds nothing, C39. -/

namespace Javatools

open Change

theorem nanFree_of_poolEq {pool : Pool} (h : poolEq pool pool = true) : NaNFree pool := by
  have fl : ∀ f : PyFloat, pyEqFloat f f = true → f ≠ .nan := by
    rintro f hf rfl
    exact absurd hf (by decide)
  induction pool with
  | nil => intro i c hc; simp at hc
  | cons x pool ih =>
    simp only [poolEq, Bool.and_eq_true] at h
    intro i c hc
    cases i with
    | succ i => exact ih h.2 i c (by simpa using hc)
    | zero =>
      have : x = some c := by simpa using hc
      subst this
      have hx : constPyEq c c = true := h.1
      exact ⟨fun b e => by subst e; exact fl _ hx, fun b e => by subst e; exact fl _ hx⟩

theorem leftMembers_nodup {ident : Member → Res Str} {ms : List Member} {d r : PyDict Str Member}
    (hd : d.keys.Nodup) (h : leftMembers ident d ms = .ok r) : r.keys.Nodup := by
  induction ms generalizing d with
  | nil => cases h; exact hd
  | cons m ms ih =>
    rw [leftMembers] at h
    split at h
    · cases h
    · exact ih (PyDict.nodup_keys_set _ _ _ hd) h

/-- Members of which none is reported as added are all found, and found only once. -/
theorem rightMembers_distinct {ident : Member → Res Str} {ms : List Member} {li : PyDict Str Member}
    {ds : List MemberDelta} (hd : li.keys.Nodup) (h : rightMembers ident li ms = .ok ds)
    (hn : ∀ m, .added m ∉ ds) :
    (∀ m ∈ ms, ∀ k, ident m = .ok k → k ∈ li.keys) ∧
    ms.Pairwise fun a b => ∀ k, ident a = .ok k → ident b ≠ .ok k := by
  induction ms generalizing li ds with
  | nil => exact ⟨fun m hm => (nomatch hm), .nil⟩
  | cons m ms ih =>
    rw [rightMembers] at h
    split at h
    · cases h
    · rename_i k hk
      split at h
      · rename_i lf hlf
        cases hr : rightMembers ident (li.del k) ms with
        | error e => rw [hr] at h; cases h
        | ok ds' =>
          rw [hr] at h
          simp only [Except.map, Except.ok.injEq] at h
          subst h
          have hdel : (li.del k).keys.Nodup ∧ ∀ k', k' ∈ (li.del k).keys → k' ∈ li.keys ∧ k' ≠ k := by
            rw [PyDict.del_eq_filter li k hd]
            refine ⟨List.Nodup.sublist (List.Sublist.map _ List.filter_sublist) hd, fun k' hk' => ?_⟩
            obtain ⟨p, hp, rfl⟩ := List.mem_map.1 hk'
            have := List.mem_filter.1 hp
            exact ⟨List.mem_map_of_mem this.1, by simpa using this.2⟩
          obtain ⟨h1, h2⟩ := ih hdel.1 hr fun m' hm' => hn m' (List.mem_cons_of_mem _ hm')
          refine ⟨fun m' hm' k' hk' => ?_, List.pairwise_cons.2 ⟨fun m' hm' k' hk' hk'' => ?_, h2⟩⟩
          · rcases List.mem_cons.1 hm' with rfl | hm'
            · rw [hk, Except.ok.injEq] at hk'
              subst hk'
              rw [← PyDict.get?_isSome_iff, hlf]; rfl
            · exact (hdel.2 k' (h1 m' hm' k' hk')).1
          · rw [hk, Except.ok.injEq] at hk'
            subst hk'
            exact (hdel.2 _ (h1 m' hm' _ hk'')).2 rfl
      · cases hr : rightMembers ident li ms with
        | error e => rw [hr] at h; cases h
        | ok ds' =>
          rw [hr] at h
          simp only [Except.map, Except.ok.injEq] at h
          subst h
          exact absurd (List.mem_cons_self ..) (hn m)

theorem members_distinct (T : Texts) (lim : Nat) (name label what : String)
    (children : Member → Member → List (Change Opts)) (pool : Pool) (ms : List Member)
    (h : Calm (membersChange T lim name label what children pool pool ms ms)) : DistinctIds lim pool ms := by
  have h := (Calm.super_iff rfl).1 h
  cases hl : leftMembers (fun m => m.identifier pool lim) [] ms with
  | error e =>
    have hd : sortedDeltas (fun m => m.identifier pool lim) (fun m => m.identifier pool lim) ms ms = .error e := by
      simp only [sortedDeltas, memberDeltas, hl, Except.map]
    rw [hd] at h
    obtain ⟨c', hc, -⟩ := h _ (List.mem_singleton.2 rfl)
    cases hc
  | ok li =>
    cases hr : rightMembers (fun m => m.identifier pool lim) li ms with
    | error e =>
      have hd : sortedDeltas (fun m => m.identifier pool lim) (fun m => m.identifier pool lim) ms ms = .error e := by
        simp only [sortedDeltas, memberDeltas, hl, hr, Except.map]
      rw [hd] at h
      obtain ⟨c', hc, -⟩ := h _ (List.mem_singleton.2 rfl)
      cases hc
    | ok ds =>
      have hd : sortedDeltas (fun m => m.identifier pool lim) (fun m => m.identifier pool lim) ms ms =
          .ok (iterateByType MemberDelta.kind ds [.added, .removed, .changed]) := by
        simp only [sortedDeltas, memberDeltas, hl, hr, Except.map]
      rw [hd] at h
      refine (rightMembers_distinct (leftMembers_nodup (d := []) List.nodup_nil hl) hr fun m hm => ?_).2
      have hm' := (C37_permutation MemberDelta.kind ds [.added, .removed, .changed]).mem_iff.2 hm
      obtain ⟨c', hc, hch⟩ := h _ (List.mem_map_of_mem hm')
      cases hc
      cases hch

/-- C39, exactly: a class that can be read is found to be as it is if and only if its pool holds no not-a-number and
no two of its fields and no two of its methods have the same identifier. -/
theorem C39_exact (T : Texts) (lim depth : Nat) (c : ClassInfo) (hr : ReadableClass lim depth c) :
    Calm (javaClassChange T lim depth c c) ↔
      NaNFree c.pool ∧ DistinctIds lim c.pool c.fields ∧ DistinctIds lim c.pool c.methods := by
  constructor
  · intro h
    have h := (Calm.super_iff rfl).1 h
    refine ⟨?_, ?_, ?_⟩
    · have hp : Calm (poolChange T c c) := h _ (by simp [classChildren])
      have := checkImpl_calm.1 ((Calm.leaf_iff rfl).1 hp)
      exact nanFree_of_poolEq (by simpa using this)
    · exact members_distinct T lim _ _ _ _ _ _ (h _ (by unfold classChildren; exact .tail _ (.tail _ (.tail _ (.tail _ (.head _))))))
    · exact members_distinct T lim _ _ _ _ _ _
        (h _ (by unfold classChildren; exact .tail _ (.tail _ (.tail _ (.tail _ (.tail _ (.head _)))))))
  · rintro ⟨hp, hf, hm⟩
    exact (C39_readable_partial T lim depth c hp hf hm hr).1

/-- The class with two fields of the same name can be read, and is found to differ from itself. -/
example : ReadableClass 9 9 (classOf twoFields) ∧
    ¬ Calm (javaClassChange noTexts 9 9 (classOf twoFields) (classOf twoFields)) := by
  have hfs : (classOf twoFields).fields = [⟨1, 3, 4, [], false⟩, ⟨1, 3, 5, [], false⟩] := by decide +kernel
  have hr : ReadableClass 9 9 (classOf twoFields) := by
    constructor
    · exact of_isOk (by decide +kernel)
    · exact of_isOk (by decide +kernel)
    · exact of_isOk (by decide +kernel)
    · exact of_isOk (by decide +kernel)
    · exact annos_absent (by decide +kernel)
    · exact annos_absent (by decide +kernel)
    · intro m hm
      rw [hfs] at hm
      simp only [List.mem_cons, List.not_mem_nil, or_false] at hm
      rcases hm with rfl | rfl
      all_goals
        constructor
        · exact of_isOk (by decide +kernel)
        · exact of_isOk (by decide +kernel)
        · exact of_isOk (by decide +kernel)
        · intro h; exact absurd h (by decide +kernel)
        · exact of_isOk (by decide +kernel)
        · exact annos_absent (by decide +kernel)
        · exact annos_absent (by decide +kernel)
        · exact of_isOk (by decide +kernel)
        · exact of_isOk (by decide +kernel)
        · exact ⟨none, by decide +kernel, by simp⟩
    · intro m hm; exact absurd hm (by simp [classOf, twoFields])
  refine ⟨hr, fun h => ?_⟩
  have hd := ((C39_exact _ _ _ _ hr).1 h).2.1
  rw [hfs, DistinctIds, List.pairwise_pair] at hd
  exact hd "x".toList (by decide +kernel) (by decide +kernel)

end Javatools
