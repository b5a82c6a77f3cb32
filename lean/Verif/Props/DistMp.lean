import Verif.Model.DistMp
/-
C62: reports made by worker processes.
-/
namespace Javatools
variable {C : Type} (J : Jobs C)

/-! ### The task list -/

theorem mem_enqueued (n : Nat) (cs : List C) (i : Nat) (x : C) :
    (i, x) ∈ enqueued J n cs ↔ n ≤ i ∧ cs[i - n]? = some x ∧ J.isReport x = true := by
  induction cs generalizing n with
  | nil => simp [enqueued]
  | cons y ys ih =>
    have hstep : (i, x) ∈ enqueued J (n + 1) ys ↔
        n < i ∧ (y :: ys)[i - n]? = some x ∧ J.isReport x = true := by
      rw [ih]
      constructor
      · rintro ⟨h1, h2, h3⟩
        refine ⟨by omega, ?_, h3⟩
        rw [show i - n = (i - (n + 1)) + 1 by omega, List.getElem?_cons_succ]
        exact h2
      · rintro ⟨h1, h2, h3⟩
        refine ⟨by omega, ?_, h3⟩
        rw [show i - n = (i - (n + 1)) + 1 by omega, List.getElem?_cons_succ] at h2
        exact h2
    simp only [enqueued]
    split
    · rename_i hy
      rw [List.mem_cons, hstep]
      constructor
      · rintro (h | ⟨h1, h2⟩)
        · simp only [Prod.mk.injEq] at h
          obtain ⟨rfl, rfl⟩ := h
          simp [hy]
        · exact ⟨by omega, h2⟩
      · rintro ⟨h1, h2, h3⟩
        by_cases h : i = n
        · subst h
          simp only [Nat.sub_self, List.getElem?_cons_zero, Option.some.injEq] at h2
          subst h2
          exact .inl rfl
        · exact .inr ⟨by omega, h2, h3⟩
    · rename_i hy
      rw [hstep]
      constructor
      · rintro ⟨h1, h2⟩; exact ⟨by omega, h2⟩
      · rintro ⟨h1, h2, h3⟩
        refine ⟨?_, h2, h3⟩
        rcases Nat.lt_or_ge n i with h | h
        · exact h
        · have : i = n := by omega
          subst this
          simp only [Nat.sub_self, List.getElem?_cons_zero, Option.some.injEq] at h2
          subst h2
          exact absurd h3 hy

theorem enqueued_ge (n : Nat) (cs : List C) : ∀ i ∈ (enqueued J n cs).map Prod.fst, n ≤ i := by
  intro i hi
  obtain ⟨⟨j, x⟩, h1, rfl⟩ := List.mem_map.1 hi
  exact ((mem_enqueued J n cs j x).1 h1).1

theorem enqueued_nodup (n : Nat) (cs : List C) : ((enqueued J n cs).map Prod.fst).Nodup := by
  induction cs generalizing n with
  | nil => simp [enqueued]
  | cons y ys ih =>
    simp only [enqueued]
    split
    · rw [List.map_cons, List.nodup_cons]
      refine ⟨fun h => ?_, ih _⟩
      have := enqueued_ge J (n + 1) ys _ h
      simp at this
      omega
    · exact ih _

/-! ### The invariant -/

/-- The index of the task that a worker holds. -/
def Worker.held : Worker C → List Nat
  | .busy i _ => [i]
  | .crashed i _ => [i]
  | _ => []

def Worker.notEnded : Worker C → Bool
  | .ended => false
  | _ => true

/-- Has the main process checked the change with that index? -/
def MainPc.past (i : Nat) : MainPc → Prop
  | .starting _ => False
  | .checking j => i < j
  | _ => True

/-- What holds of every reachable state: `its` are the tasks in the queue, `got` the indices of the
results that have been received. -/
structure MpInv (P : Int) (cs0 : List C) (s : MpState C) (its : List (Nat × C)) (got : List Nat) :
    Prop where
  tasks : s.tasks = its.map some ++ List.replicate (s.workers.countP Worker.notEnded) none
  perm : (its.map Prod.fst ++ (s.workers.flatMap Worker.held ++ s.results.map Prod.fst ++ got)).Perm
    ((enqueued J 0 cs0).map Prod.fst)
  begun : s.begun.Perm (s.workers.flatMap Worker.held ++ s.results.map Prod.fst ++ got)
  queued : ∀ i x, (i, x) ∈ its → cs0[i]? = some x ∧ J.isReport x = true
  held : ∀ i x, Worker.busy i x ∈ s.workers → cs0[i]? = some x ∧ J.isReport x = true
  dead : ∀ i x, Worker.crashed i x ∈ s.workers →
    cs0[i]? = some x ∧ J.isReport x = true ∧ ∃ e, J.run x = .error e
  sent : ∀ i x', (i, x') ∈ s.results → ∃ x, cs0[i]? = some x ∧ J.isReport x = true ∧ J.run x = .ok x'
  len : s.changes.length = cs0.length
  reports : ∀ i x, cs0[i]? = some x → J.isReport x = true →
    (i ∈ got ∧ ∃ x', J.run x = .ok x' ∧ s.changes[i]? = some (some x')) ∨
    (i ∉ got ∧ s.changes[i]? = some none)
  others : (∀ e, s.main ≠ .failed e) → ∀ i x, cs0[i]? = some x → J.isReport x = false →
    (s.main.past i ∧ ∃ x', J.check x = .ok x' ∧ s.changes[i]? = some (some x')) ∨
    (¬ s.main.past i ∧ s.changes[i]? = some (some x))
  ended : Worker.ended ∈ s.workers → its = []
  starting : ∀ k, s.main = .starting k →
    s.workers.length + k = (min P (enqueued J 0 cs0).length).toNat ∧ got = []
  checking : ∀ i, s.main = .checking i →
    s.workers.length = (min P (enqueued J 0 cs0).length).toNat ∧ got = []
  getting : ∀ k, s.main = .getting k →
    s.workers.length = (min P (enqueued J 0 cs0).length).toNat ∧
      k + got.length = (enqueued J 0 cs0).length
  done : ∀ c, s.main = .done c → got.length = (enqueued J 0 cs0).length ∧
    ∃ xs : List C, s.changes = xs.map some ∧ c = xs.any J.isChange
  failed : ∀ e, s.main = .failed e → ∃ x ∈ cs0, J.isReport x = false ∧ J.check x = .error e

theorem mpInv_init (P : Int) (cs0 : List C) :
    MpInv J P cs0 (mpInit J P cs0) (enqueued J 0 cs0) [] where
  tasks := by simp [mpInit]
  perm := by simp [mpInit]
  begun := by simp [mpInit]
  queued i x h := by
    have := (mem_enqueued J 0 cs0 i x).1 h
    exact ⟨this.2.1, this.2.2⟩
  held := by simp [mpInit]
  dead := by simp [mpInit]
  sent := by simp [mpInit]
  len := by simp [mpInit, withoutReports]
  reports i x h1 h2 := by
    right
    simp [mpInit, withoutReports, h1, h2]
  others _ i x h1 h2 := by
    right
    simp [mpInit, withoutReports, h1, h2, MainPc.past]
  ended := by simp [mpInit]
  starting k h := by
    simp only [mpInit, MainPc.starting.injEq] at h
    simp [mpInit, h]
  checking i h := by simp [mpInit] at h
  getting k h := by simp [mpInit] at h
  done c h := by simp [mpInit] at h
  failed e h := by simp [mpInit] at h

/-- When all results have been received none is missing. -/
theorem MpInv.all_got {J : Jobs C} {P : Int} {cs0 : List C} {s : MpState C} {its : List (Nat × C)}
    {got : List Nat} (h : MpInv J P cs0 s its got) (hlen : got.length = (enqueued J 0 cs0).length)
    (i : Nat) (x : C) (h1 : cs0[i]? = some x) (h2 : J.isReport x = true) : i ∈ got := by
  have hl := h.perm.length_eq
  simp only [List.length_append, List.length_map] at hl
  have h3 : its = [] := List.eq_nil_of_length_eq_zero (by omega)
  have h4 : s.workers.flatMap Worker.held = [] := List.eq_nil_of_length_eq_zero (by omega)
  have h5 : s.results = [] := List.eq_nil_of_length_eq_zero (by omega)
  have hp := h.perm
  rw [h3, h4, h5] at hp
  simp only [List.map_nil, List.nil_append] at hp
  rw [hp.mem_iff, List.mem_map]
  exact ⟨(i, x), (mem_enqueued J 0 cs0 i x).2 ⟨by omega, by simpa using h1, h2⟩, rfl⟩

theorem perm_of_count {l₁ l₂ : List Nat} (h : ∀ a, l₁.count a = l₂.count a) : l₁.Perm l₂ :=
  List.perm_iff_count.2 h

theorem mpInv_step (P : Int) (cs0 : List C) (s s' : MpState C) (its : List (Nat × C))
    (got : List Nat) (h : MpInv J P cs0 s its got)
    (hs : MpStep J (enqueued J 0 cs0).length s s') :
    ∃ its' got', MpInv J P cs0 s' its' got' := by
  have hperm := fun a => List.perm_iff_count.1 h.perm a
  have hbegun := fun a => List.perm_iff_count.1 h.begun a
  cases hs with
  | start k ts ws rs cs b =>
    obtain ⟨h1, h2⟩ := h.starting k.succ rfl
    refine ⟨its, got, ?_⟩
    exact {
      tasks := by
        have := h.tasks
        simp only at this ⊢
        rw [this]
        simp [Worker.notEnded, List.replicate_succ', List.append_assoc]
      perm := by simpa [Worker.held] using h.perm
      begun := by simpa [Worker.held] using h.begun
      queued := h.queued
      held := fun i x hm => h.held i x (by simpa using hm)
      dead := fun i x hm => h.dead i x (by simpa using hm)
      sent := h.sent
      len := h.len
      reports := h.reports
      others := fun _ i x h1 h2 => by
        have := h.others (by simp) i x h1 h2
        simpa [MainPc.past] using this
      ended := fun hm => h.ended (by simpa using hm)
      starting := fun k' hk => by
        simp only [MainPc.starting.injEq] at hk
        subst hk
        refine ⟨?_, h2⟩
        simp only at h1
        simp only [List.length_append, List.length_cons, List.length_nil]
        omega
      checking := by simp
      getting := by simp
      done := by simp
      failed := by simp }
  | started ts ws rs cs b =>
    obtain ⟨h1, h2⟩ := h.starting 0 rfl
    refine ⟨its, got, ?_⟩
    exact { h with
      others := fun _ i x h1 h2 => by
        have := h.others (by simp) i x h1 h2
        simpa [MainPc.past] using this
      starting := by simp
      checking := fun i hi => ⟨by simpa using h1, h2⟩
      getting := by simp
      done := by simp
      failed := by simp }
  | skip i ts ws rs cs b hi =>
    obtain ⟨h1, h2⟩ := h.checking i rfl
    refine ⟨its, got, ?_⟩
    exact { h with
      others := fun _ j x hj hr => by
        have := h.others (by simp) j x hj hr
        have hne : j ≠ i := by
          rintro rfl
          rcases this with ⟨_, x', _, hx'⟩ | ⟨_, hx'⟩ <;> simp only at hx' <;> rw [hi] at hx' <;>
            simp at hx'
        simp only [MainPc.past] at this ⊢
        rcases this with ⟨a, b⟩ | ⟨a, b⟩
        · exact .inl ⟨by omega, b⟩
        · exact .inr ⟨by omega, b⟩
      starting := by simp
      checking := fun i hi => ⟨by simpa using h1, h2⟩
      getting := by simp
      done := by simp
      failed := by simp }
  | check i ts ws rs cs b x x' hi hx =>
    obtain ⟨h1, h2⟩ := h.checking i rfl
    have hil : i < cs.length := by
      rcases Nat.lt_or_ge i cs.length with h' | h'
      · exact h'
      · rw [List.getElem?_eq_none h'] at hi; simp at hi
    have hlen := h.len
    simp only at hlen
    obtain ⟨y, hy⟩ : ∃ y, cs0[i]? = some y := ⟨cs0[i]'(by omega), by simp [hlen ▸ hil]⟩
    have hyr : J.isReport y = false := by
      cases hb : J.isReport y with
      | false => rfl
      | true =>
        rcases h.reports i y hy hb with ⟨hg, _⟩ | ⟨_, hn⟩
        · rw [h2] at hg; simp at hg
        · simp only at hn; rw [hi] at hn; simp at hn
    refine ⟨its, got, ?_⟩
    exact { h with
      len := by simpa using h.len
      reports := fun j z hj hz => by
        have hne : i ≠ j := by
          rintro rfl
          rw [hy, Option.some.injEq] at hj
          subst hj
          rw [hyr] at hz
          simp at hz
        simp only [List.getElem?_set_ne hne]
        exact h.reports j z hj hz
      others := fun _ j z hj hz => by
        have := h.others (by simp) j z hj hz
        simp only [MainPc.past] at this ⊢
        by_cases hij : i = j
        · subst hij
          rcases this with ⟨a, _⟩ | ⟨a, b⟩
          · omega
          · rw [hi, Option.some.injEq, Option.some.injEq] at b
            subst b
            exact .inl ⟨by omega, x', hx, by simp [List.getElem?_set_self hil]⟩
        · rw [List.getElem?_set_ne hij]
          rcases this with ⟨a, b⟩ | ⟨a, b⟩
          · exact .inl ⟨by omega, b⟩
          · exact .inr ⟨by omega, b⟩
      starting := by simp
      checking := fun i hi => ⟨by simpa using h1, h2⟩
      getting := by simp
      done := by simp
      failed := by simp }
  | checkFails i ts ws rs cs b x e hi hx =>
    obtain ⟨h1, h2⟩ := h.checking i rfl
    refine ⟨its, got, ?_⟩
    exact { h with
      others := fun hf => absurd rfl (hf e)
      starting := by simp
      checking := by simp
      getting := by simp
      done := by simp
      failed := fun e' he => by
        simp only [MainPc.failed.injEq] at he
        subst he
        have hil : i < cs.length := by
          rcases Nat.lt_or_ge i cs.length with h' | h'
          · exact h'
          · rw [List.getElem?_eq_none h'] at hi; simp at hi
        have hlen := h.len
        simp only at hlen
        obtain ⟨y, hy⟩ : ∃ y, cs0[i]? = some y := ⟨cs0[i]'(by omega), by simp [hlen ▸ hil]⟩
        have hyr : J.isReport y = false := by
          cases hb : J.isReport y with
          | false => rfl
          | true =>
            rcases h.reports i y hy hb with ⟨hg, _⟩ | ⟨_, hn⟩
            · rw [h2] at hg; simp at hg
            · simp only at hn; rw [hi] at hn; simp at hn
        have := h.others (by simp) i y hy hyr
        simp only [MainPc.past] at this
        rcases this with ⟨a, _⟩ | ⟨_, b⟩
        · omega
        · rw [hi, Option.some.injEq, Option.some.injEq] at b
          subst b
          exact ⟨x, List.mem_of_getElem? hy, hyr, hx⟩ }
  | checked i ts ws rs cs b hi =>
    obtain ⟨h1, h2⟩ := h.checking i rfl
    refine ⟨its, got, ?_⟩
    exact { h with
      others := fun _ j x hj hr => by
        have := h.others (by simp) j x hj hr
        simp only [MainPc.past] at this ⊢
        have hlen := h.len
        simp only at hlen
        have hj' : j < cs0.length := by
          rcases Nat.lt_or_ge j cs0.length with h' | h'
          · exact h'
          · rw [List.getElem?_eq_none h'] at hj; simp at hj
        have hi' : cs.length ≤ i := by
          rcases Nat.lt_or_ge i cs.length with h' | h'
          · rw [List.getElem?_eq_getElem h'] at hi; simp at hi
          · exact h'
        rcases this with ⟨_, b⟩ | ⟨a, _⟩
        · exact .inl ⟨trivial, b⟩
        · omega
      starting := by simp
      checking := by simp
      getting := fun k hk => by
        simp only [MainPc.getting.injEq] at hk
        subst hk
        rw [h2]
        exact ⟨by simpa using h1, by simp⟩
      done := by simp
      failed := by simp }
  | get k ts ws pre post i x cs b =>
    obtain ⟨h1, h2⟩ := h.getting k.succ rfl
    obtain ⟨y, hy, hyr, hrun⟩ := h.sent i x (by simp)
    have hil : i < cs.length := by
      have hlen := h.len
      simp only at hlen
      rcases Nat.lt_or_ge i cs0.length with h' | h'
      · omega
      · rw [List.getElem?_eq_none h'] at hy; simp at hy
    refine ⟨its, got ++ [i], ?_⟩
    exact { h with
      perm := perm_of_count fun a => by
        have := hperm a
        simp only [List.count_append, List.map_append, List.map_cons, List.count_cons,
          List.count_nil] at this ⊢
        omega
      begun := perm_of_count fun a => by
        have := hbegun a
        simp only [List.count_append, List.map_append, List.map_cons, List.count_cons,
          List.count_nil] at this ⊢
        omega
      sent := fun j z hm => h.sent j z (by
        simp only [List.mem_append, List.mem_cons] at hm ⊢
        rcases hm with hm | hm
        · exact .inl hm
        · exact .inr (.inr hm))
      len := by simpa using h.len
      reports := fun j z hj hz => by
        by_cases hij : i = j
        · subst hij
          rw [hy, Option.some.injEq] at hj
          subst hj
          exact .inl ⟨by simp, x, hrun, by simp [List.getElem?_set_self hil]⟩
        · simp only [List.getElem?_set_ne hij]
          rcases h.reports j z hj hz with ⟨a, b⟩ | ⟨a, b⟩
          · exact .inl ⟨by simp [a], b⟩
          · refine .inr ⟨?_, b⟩
            simp only [List.mem_append, List.mem_singleton, not_or]
            exact ⟨a, fun e => hij e.symm⟩
      others := fun _ j z hj hz => by
        have := h.others (by simp) j z hj hz
        simp only [MainPc.past] at this ⊢
        have hij : i ≠ j := by
          rintro rfl
          rw [hy, Option.some.injEq] at hj
          subst hj
          rw [hyr] at hz
          simp at hz
        rw [List.getElem?_set_ne hij]
        exact this
      starting := by simp
      checking := by simp
      getting := fun k' hk => by
        simp only [MainPc.getting.injEq] at hk
        subst hk
        refine ⟨by simpa using h1, ?_⟩
        simp only [List.length_append, List.length_cons, List.length_nil]
        omega
      done := by simp
      failed := by simp }
  | finish ts ws rs xs b =>
    obtain ⟨h1, h2⟩ := h.getting 0 rfl
    refine ⟨its, got, ?_⟩
    exact { h with
      others := fun _ i x h1 h2 => by
        have := h.others (by simp) i x h1 h2
        simpa [MainPc.past] using this
      starting := by simp
      checking := by simp
      getting := by simp
      done := fun c hc => by
        simp only [MainPc.done.injEq] at hc
        exact ⟨by omega, xs, rfl, hc.symm⟩
      failed := by simp }
  | finishFails ts ws rs cs b hn =>
    exfalso
    obtain ⟨h1, h2⟩ := h.getting 0 rfl
    obtain ⟨i, hi, hin⟩ := List.getElem_of_mem hn
    have hlen := h.len
    simp only at hlen
    have hi2 : cs[i]? = some none := by rw [List.getElem?_eq_getElem hi, hin]
    obtain ⟨y, hy⟩ : ∃ y, cs0[i]? = some y := ⟨cs0[i]'(by omega), by simp [hlen ▸ hi]⟩
    cases hr : J.isReport y with
    | true =>
      have hg := h.all_got (by omega) i y hy hr
      rcases h.reports i y hy hr with ⟨_, x', _, hx'⟩ | ⟨hng, _⟩
      · simp only at hx'; rw [hi2] at hx'; simp at hx'
      · exact hng hg
    | false =>
      rcases h.others (by simp) i y hy hr with ⟨_, x', _, hx'⟩ | ⟨_, hx'⟩ <;>
        simp only at hx' <;> rw [hi2] at hx' <;> simp at hx'
  | take m i x ts pre post rs cs b =>
    have ht := h.tasks
    simp only at ht
    cases its with
    | nil =>
      simp only [List.map_nil, List.nil_append] at ht
      have : some (i, x) ∈ List.replicate ((pre ++ Worker.waiting :: post).countP Worker.notEnded)
          (none : Option (Nat × C)) := by rw [← ht]; simp
      rw [List.mem_replicate] at this
      simp at this
    | cons q its =>
      simp only [List.map_cons, List.cons_append, List.cons.injEq, Option.some.injEq] at ht
      obtain ⟨rfl, ht⟩ := ht
      refine ⟨its, got, ?_⟩
      exact {
        tasks := by
          rw [ht]
          simp [Worker.notEnded, List.countP_append, List.countP_cons]
        perm := perm_of_count fun a => by
          have := hperm a
          simp only [List.count_append, List.map_cons, List.count_cons, List.flatMap_append,
            List.flatMap_cons, Worker.held, List.count_nil] at this ⊢
          omega
        begun := perm_of_count fun a => by
          have := hbegun a
          simp only [List.count_append, List.count_cons, List.flatMap_append,
            List.flatMap_cons, Worker.held, List.count_nil] at this ⊢
          omega
        queued := fun j y hj => h.queued j y (by simp [hj])
        held := fun j y hj => by
          simp only [List.mem_append, List.mem_cons] at hj
          rcases hj with hj | hj | hj
          · exact h.held j y (by simp [hj])
          · simp only [Worker.busy.injEq] at hj
            obtain ⟨rfl, rfl⟩ := hj
            exact h.queued _ _ (by simp)
          · exact h.held j y (by simp [hj])
        dead := fun j y hj => h.dead j y (by simpa using hj)
        sent := h.sent
        len := h.len
        reports := h.reports
        others := h.others
        ended := fun hm => by
          have := h.ended (by simpa using hm)
          simp at this
        starting := fun k hk => by simpa using h.starting k hk
        checking := fun k hk => by simpa using h.checking k hk
        getting := fun k hk => by simpa using h.getting k hk
        done := h.done
        failed := h.failed }
  | stop m ts pre post rs cs b =>
    have ht := h.tasks
    simp only at ht
    cases its with
    | cons q its => simp at ht
    | nil =>
      simp only [List.map_nil, List.nil_append, List.countP_append, List.countP_cons,
        Worker.notEnded, if_true] at ht
      rw [← Nat.add_assoc, List.replicate_succ, List.cons.injEq] at ht
      refine ⟨[], got, ?_⟩
      exact {
        tasks := by
          rw [ht.2]
          simp [Worker.notEnded, List.countP_append, List.countP_cons]
        perm := by simpa [Worker.held] using h.perm
        begun := by simpa [Worker.held] using h.begun
        queued := h.queued
        held := fun j y hj => h.held j y (by simpa using hj)
        dead := fun j y hj => h.dead j y (by simpa using hj)
        sent := h.sent
        len := h.len
        reports := h.reports
        others := h.others
        ended := fun _ => rfl
        starting := fun k hk => by simpa using h.starting k hk
        checking := fun k hk => by simpa using h.checking k hk
        getting := fun k hk => by simpa using h.getting k hk
        done := h.done
        failed := h.failed }
  | put m ts pre post i x x' rs cs b hx =>
    obtain ⟨hy, hyr⟩ := h.held i x (by simp)
    refine ⟨its, got, ?_⟩
    exact {
      tasks := by
        have := h.tasks
        simp only at this
        rw [this]
        simp [Worker.notEnded, List.countP_append, List.countP_cons]
      perm := perm_of_count fun a => by
        have := hperm a
        simp only [List.count_append, List.map_cons, List.map_append, List.map_nil, List.count_cons,
          List.flatMap_append, List.flatMap_cons, Worker.held, List.count_nil] at this ⊢
        omega
      begun := perm_of_count fun a => by
        have := hbegun a
        simp only [List.count_append, List.map_cons, List.map_append, List.map_nil, List.count_cons,
          List.flatMap_append, List.flatMap_cons, Worker.held, List.count_nil] at this ⊢
        omega
      queued := h.queued
      held := fun j y hj => by
        simp only [List.mem_append, List.mem_cons, reduceCtorEq, false_or] at hj
        rcases hj with hj | hj <;> exact h.held j y (by simp [hj])
      dead := fun j y hj => h.dead j y (by simpa using hj)
      sent := fun j y hj => by
        simp only [List.mem_append, List.mem_singleton] at hj
        rcases hj with hj | hj
        · exact h.sent j y hj
        · simp only [Prod.mk.injEq] at hj
          obtain ⟨rfl, rfl⟩ := hj
          exact ⟨x, hy, hyr, hx⟩
      len := h.len
      reports := h.reports
      others := h.others
      ended := fun hm => h.ended (by simpa using hm)
      starting := fun k hk => by simpa using h.starting k hk
      checking := fun k hk => by simpa using h.checking k hk
      getting := fun k hk => by simpa using h.getting k hk
      done := h.done
      failed := h.failed }
  | crash m ts pre post i x e rs cs b hx =>
    obtain ⟨hy, hyr⟩ := h.held i x (by simp)
    refine ⟨its, got, ?_⟩
    exact {
      tasks := by
        have := h.tasks
        simp only at this
        rw [this]
        simp [Worker.notEnded, List.countP_append, List.countP_cons]
      perm := by simpa [Worker.held] using h.perm
      begun := by simpa [Worker.held] using h.begun
      queued := h.queued
      held := fun j y hj => by
        simp only [List.mem_append, List.mem_cons, reduceCtorEq, false_or] at hj
        rcases hj with hj | hj <;> exact h.held j y (by simp [hj])
      dead := fun j y hj => by
        simp only [List.mem_append, List.mem_cons] at hj
        rcases hj with hj | hj | hj
        · exact h.dead j y (by simp [hj])
        · simp only [Worker.crashed.injEq] at hj
          obtain ⟨rfl, rfl⟩ := hj
          exact ⟨hy, hyr, e, hx⟩
        · exact h.dead j y (by simp [hj])
      sent := h.sent
      len := h.len
      reports := h.reports
      others := h.others
      ended := fun hm => h.ended (by simpa using hm)
      starting := fun k hk => by simpa using h.starting k hk
      checking := fun k hk => by simpa using h.checking k hk
      getting := fun k hk => by simpa using h.getting k hk
      done := h.done
      failed := h.failed }

theorem mpInv (P : Int) (cs0 : List C) (s : MpState C) (h : MpReach J P cs0 s) :
    ∃ its got, MpInv J P cs0 s its got := by
  induction h with
  | init => exact ⟨_, _, mpInv_init J P cs0⟩
  | step _ hs ih =>
    obtain ⟨its, got, hi⟩ := ih
    exact mpInv_step J P cs0 _ _ its got hi hs

/-! ### C62 -/

/-- The sequential loop succeeds if every change can be processed, and gives the processed changes
in order. -/
theorem seqLoop_ok (cs xs : List C) (b : Bool) (hl : xs.length = cs.length)
    (h : ∀ (i : Nat) (x : C), cs[i]? = some x → ∃ x', (if J.isReport x then J.run x else J.check x) = .ok x' ∧
      xs[i]? = some x') : seqLoop J cs b = .ok (xs, b || xs.any J.isChange) := by
  induction cs generalizing xs b with
  | nil =>
    simp only [List.length_nil] at hl
    rw [List.eq_nil_of_length_eq_zero hl]
    simp [seqLoop]
  | cons c cs ih =>
    obtain ⟨x', h1, h2⟩ := h 0 c rfl
    cases xs with
    | nil => simp at hl
    | cons y ys =>
      simp only [List.getElem?_cons_zero, Option.some.injEq] at h2
      subst h2
      have := ih ys (b || J.isChange y) (by simpa using hl) fun i x hx => by
        have := h (i + 1) x (by simpa using hx)
        simpa using this
      simp only [seqLoop, h1, this]
      simp [Bool.or_assoc]

/-- The sequential loop fails if some change cannot be processed. -/
theorem seqLoop_error (cs : List C) (b : Bool) (x : C) (hx : x ∈ cs) (e : PyErr)
    (h : (if J.isReport x then J.run x else J.check x) = .error e) :
    ∃ e', seqLoop J cs b = .error e' := by
  induction cs generalizing b with
  | nil => simp at hx
  | cons c cs ih =>
    simp only [seqLoop]
    cases hc : (if J.isReport c then J.run c else J.check c) with
    | error e1 => exact ⟨e1, rfl⟩
    | ok c' =>
      rcases List.mem_cons.1 hx with rfl | hx
      · rw [hc] at h; simp at h
      · obtain ⟨e', he'⟩ := ih (b || J.isChange c') hx
        exact ⟨e', by simp only [he']⟩

/-- C62: however many processes there are and however they run, a parallel check that ends has the
children and the status of the sequential check, and every sub-report was run exactly once. -/
theorem C62_outcome (P : Int) (cs : List C) (s : MpState C) (h : MpReach J P cs s) (c : Bool)
    (hd : s.main = .done c) :
    ∃ xs, seqCheck J cs = .ok (xs, c) ∧ s.changes = xs.map some ∧
      s.begun.Nodup ∧ ∀ i, i ∈ s.begun ↔ ∃ x, cs[i]? = some x ∧ J.isReport x = true := by
  obtain ⟨its, got, hi⟩ := mpInv J P cs s h
  obtain ⟨h1, xs, h2, h3⟩ := hi.done c hd
  have hlen := hi.len
  rw [h2, List.length_map] at hlen
  refine ⟨xs, ?_, h2, ?_⟩
  · have := seqLoop_ok J cs xs false hlen fun i x hx => by
      cases hr : J.isReport x with
      | true =>
        rcases hi.reports i x hx hr with ⟨_, x', hx1, hx2⟩ | ⟨hng, _⟩
        · refine ⟨x', by simpa using hx1, ?_⟩
          rw [h2, List.getElem?_map] at hx2
          cases hy : xs[i]? with
          | none => rw [hy] at hx2; simp at hx2
          | some y => rw [hy] at hx2; simpa using hx2
        · exact absurd (hi.all_got h1 i x hx hr) hng
      | false =>
        rcases hi.others (by rw [hd]; simp) i x hx hr with ⟨_, x', hx1, hx2⟩ | ⟨hp, _⟩
        · refine ⟨x', by simpa using hx1, ?_⟩
          rw [h2, List.getElem?_map] at hx2
          cases hy : xs[i]? with
          | none => rw [hy] at hx2; simp at hx2
          | some y => rw [hy] at hx2; simpa using hx2
        · rw [hd] at hp
          exact absurd trivial hp
    rw [seqCheck, this, h3]
    simp
  · have hl := hi.perm.length_eq
    simp only [List.length_append, List.length_map] at hl
    have h3 : its = [] := List.eq_nil_of_length_eq_zero (by omega)
    have hp := hi.perm
    rw [h3, List.map_nil, List.nil_append] at hp
    have hb := hi.begun.trans hp
    refine ⟨hb.nodup_iff.2 (enqueued_nodup J 0 cs), fun i => ?_⟩
    rw [hb.mem_iff, List.mem_map]
    constructor
    · rintro ⟨⟨j, x⟩, hm, rfl⟩
      have := (mem_enqueued J 0 cs j x).1 hm
      exact ⟨x, this.2.1, this.2.2⟩
    · rintro ⟨x, hx, hr⟩
      exact ⟨(i, x), (mem_enqueued J 0 cs i x).2 ⟨by omega, by simpa using hx, hr⟩, rfl⟩

/-- C62: no sub-report is ever run twice, whether or not the check ends. -/
theorem C62_at_most_once (P : Int) (cs : List C) (s : MpState C) (h : MpReach J P cs s) :
    s.begun.Nodup ∧ ∀ i ∈ s.begun, ∃ x, cs[i]? = some x ∧ J.isReport x = true := by
  obtain ⟨its, got, hi⟩ := mpInv J P cs s h
  have hn := hi.perm.nodup_iff.2 (enqueued_nodup J 0 cs)
  refine ⟨hi.begun.nodup_iff.2 (List.nodup_append.1 hn).2.1, fun i hb => ?_⟩
  rw [hi.begun.mem_iff] at hb
  have : i ∈ (enqueued J 0 cs).map Prod.fst := hi.perm.mem_iff.1 (List.mem_append_right _ hb)
  obtain ⟨⟨j, x⟩, hm, rfl⟩ := List.mem_map.1 this
  have := (mem_enqueued J 0 cs j x).1 hm
  exact ⟨x, this.2.1, this.2.2⟩

/-- C62: if the sequential check succeeds and there is a process at all, the parallel check never
gets stuck: as long as the main process has not ended, something can happen, and the main process
cannot fail. -/
theorem C62_progress (P : Int) (hP : 1 ≤ P) (cs : List C) (out : List C × Bool)
    (hseq : seqCheck J cs = .ok out) (s : MpState C) (h : MpReach J P cs s) :
    (∃ c, s.main = .done c) ∨ ((∀ e, s.main ≠ .failed e) ∧
      ∃ s', MpStep J (enqueued J 0 cs).length s s') := by
  have hok : ∀ x ∈ cs, ∃ x', (if J.isReport x then J.run x else J.check x) = .ok x' := by
    intro x hx
    cases hr : (if J.isReport x then J.run x else J.check x) with
    | ok x' => exact ⟨x', rfl⟩
    | error e =>
      obtain ⟨e', he'⟩ := seqLoop_error J cs false x hx e hr
      rw [seqCheck, he'] at hseq
      simp at hseq
  obtain ⟨its, got, hi⟩ := mpInv J P cs s h
  have hnf : ∀ e, s.main ≠ .failed e := by
    intro e he
    obtain ⟨x, hx, hr, hc⟩ := hi.failed e he
    obtain ⟨x', hx'⟩ := hok x hx
    rw [hr] at hx'
    simp [hc] at hx'
  have hnc : ∀ i x, Worker.crashed i x ∉ s.workers := by
    intro i x hm
    obtain ⟨h1, h2, e, h3⟩ := hi.dead i x hm
    obtain ⟨x', hx'⟩ := hok x (List.mem_of_getElem? h1)
    rw [h2] at hx'
    simp [h3] at hx'
  obtain ⟨main, tasks, workers, results, changes, begun⟩ := s
  cases main with
  | done c => exact .inl ⟨c, rfl⟩
  | failed e => exact absurd rfl (hnf e)
  | starting k =>
    refine .inr ⟨hnf, ?_⟩
    cases k with
    | zero => exact ⟨_, .started ..⟩
    | succ k => exact ⟨_, .start ..⟩
  | checking i =>
    refine .inr ⟨hnf, ?_⟩
    cases hc : changes[i]? with
    | none => exact ⟨_, .checked _ _ _ _ _ _ hc⟩
    | some o =>
      cases o with
      | none => exact ⟨_, .skip _ _ _ _ _ _ hc⟩
      | some x =>
        cases hx : J.check x with
        | ok x' => exact ⟨_, .check _ _ _ _ _ _ _ _ hc hx⟩
        | error e => exact ⟨_, .checkFails _ _ _ _ _ _ _ _ hc hx⟩
  | getting k =>
    refine .inr ⟨hnf, ?_⟩
    cases k with
    | zero =>
      by_cases hn : none ∈ changes
      · exact ⟨_, .finishFails _ _ _ _ _ hn⟩
      · have : ∃ xs : List C, changes = xs.map some := by
          have hall : ∀ (l : List (Option C)), none ∉ l → ∃ xs : List C, l = xs.map some := by
            intro l
            induction l with
            | nil => exact fun _ => ⟨[], rfl⟩
            | cons a l ih =>
              intro hnl
              simp only [List.mem_cons, not_or] at hnl
              obtain ⟨xs, hxs⟩ := ih hnl.2
              cases a with
              | none => exact absurd rfl hnl.1
              | some a => exact ⟨a :: xs, by simp [hxs]⟩
          exact hall _ hn
        obtain ⟨xs, rfl⟩ := this
        exact ⟨_, .finish ..⟩
    | succ k =>
      obtain ⟨h1, h2⟩ := hi.getting (k + 1) rfl
      simp only at h1
      cases results with
      | cons q rs =>
        obtain ⟨i, x⟩ := q
        exact ⟨_, .get k tasks workers [] rs i x changes begun⟩
      | nil =>
        have hl := hi.perm.length_eq
        simp only [List.length_append, List.length_map, List.length_nil] at hl
        cases hh : workers.flatMap Worker.held with
        | cons i _ =>
          have hm : i ∈ workers.flatMap Worker.held := by rw [hh]; simp
          obtain ⟨w, hw, hwi⟩ := List.mem_flatMap.1 hm
          obtain ⟨pre, post, rfl⟩ := List.append_of_mem hw
          cases w with
          | waiting => simp [Worker.held] at hwi
          | ended => simp [Worker.held] at hwi
          | crashed j x => exact absurd (by simp) (hnc j x)
          | busy j x =>
            cases hx : J.run x with
            | ok x' => exact ⟨_, .put _ _ _ _ _ _ _ _ _ _ hx⟩
            | error e => exact ⟨_, .crash _ _ _ _ _ _ _ _ _ _ hx⟩
        | nil =>
          rw [hh] at hl
          simp only [List.length_nil] at hl
          cases its with
          | nil => simp only [List.length_nil] at hl; omega
          | cons q its =>
            have hw : workers ≠ [] := by
              rintro rfl
              simp only [List.length_nil] at h1
              simp only [List.length_cons] at hl
              omega
            obtain ⟨w, ws, rfl⟩ := List.exists_cons_of_ne_nil hw
            have ht := hi.tasks
            simp only [List.map_cons, List.cons_append] at ht
            subst ht
            cases w with
            | waiting => exact ⟨_, .take _ q.1 q.2 _ [] ws _ _ _⟩
            | ended => have := hi.ended (by simp); simp at this
            | crashed j x => exact absurd (by simp) (hnc j x)
            | busy j x => simp [Worker.held] at hh

def MainPc.weight (len count : Nat) : MainPc → Nat
  | .starting k => 2 * k + len + count + 4
  | .checking i => (len - i) + count + 3
  | .getting k => k + 1
  | .done _ => 0
  | .failed _ => 0

def taskWeight : Option (Nat × C) → Nat
  | some _ => 3
  | none => 1

def Worker.weight : Worker C → Nat
  | .busy _ _ => 2
  | _ => 0

/-- How much there is left to do at most. -/
def MpState.weight (count : Nat) (s : MpState C) : Nat :=
  s.main.weight s.changes.length count + (s.tasks.map taskWeight).sum +
    (s.workers.map Worker.weight).sum + s.results.length

/-- C62: every run ends, because every step leaves less to do. -/
theorem C62_finite (count : Nat) (s s' : MpState C) (h : MpStep J count s s') :
    s'.weight count < s.weight count := by
  cases h <;> simp only [MpState.weight, MainPc.weight, List.map_append, List.map_cons, List.map_nil,
    List.sum_append, List.sum_cons, List.sum_nil, taskWeight, Worker.weight, List.length_append,
    List.length_cons, List.length_nil, List.length_set, List.length_map]
  case skip i ts ws rs cs b h =>
    have : i < cs.length := by
      rcases Nat.lt_or_ge i cs.length with h' | h'
      · exact h'
      · rw [List.getElem?_eq_none h'] at h; simp at h
    omega
  case check i ts ws rs cs b x x' h hx =>
    have : i < cs.length := by
      rcases Nat.lt_or_ge i cs.length with h' | h'
      · exact h'
      · rw [List.getElem?_eq_none h'] at h; simp at h
    omega
  all_goals omega

/-- C62: if the sequential check succeeds and there is a process at all, then from every state that
can arise the outcome of the sequential check can still be reached, and any state in which
nothing can happen has it. -/
theorem C62_ends_partial (P : Int) (hP : 1 ≤ P) (cs xs : List C) (c : Bool)
    (hseq : seqCheck J cs = .ok (xs, c)) (s : MpState C) (h : MpReach J P cs s) :
    ((∀ s', ¬ MpStep J (enqueued J 0 cs).length s s') → s.main = .done c ∧ s.changes = xs.map some) ∧
    ∃ s', MpReach J P cs s' ∧ s'.main = .done c ∧ s'.changes = xs.map some := by
  have hdone : ∀ s, MpReach J P cs s → (∃ c', s.main = .done c') →
      s.main = .done c ∧ s.changes = xs.map some := by
    rintro s h ⟨c', hc'⟩
    obtain ⟨xs', h1, h2, _⟩ := C62_outcome J P cs s h c' hc'
    rw [hseq] at h1
    simp only [Except.ok.injEq, Prod.mk.injEq] at h1
    obtain ⟨rfl, rfl⟩ := h1
    exact ⟨hc', h2⟩
  constructor
  · intro hn
    rcases C62_progress J P hP cs _ hseq s h with hd | ⟨_, s', hs'⟩
    · exact hdone s h hd
    · exact absurd hs' (hn s')
  · generalize hw : s.weight (enqueued J 0 cs).length = w
    induction w using Nat.strongRecOn generalizing s with
    | ind w ih =>
      rcases C62_progress J P hP cs _ hseq s h with hd | ⟨_, s', hs'⟩
      · exact ⟨s, h, hdone s h hd⟩
      · exact ih _ (by rw [← hw]; exact C62_finite J _ _ _ hs') s' (h.step hs') rfl

/-- C62: what happens when something raises. If a change that is not a sub-report raises in the
main process, the sequential check raises too. -/
theorem C62_failed (P : Int) (cs : List C) (s : MpState C) (h : MpReach J P cs s) (e : PyErr)
    (hf : s.main = .failed e) :
    (∃ e', seqCheck J cs = .error e') ∧ ∃ x ∈ cs, J.isReport x = false ∧ J.check x = .error e := by
  obtain ⟨its, got, hi⟩ := mpInv J P cs s h
  obtain ⟨x, hx, hr, hc⟩ := hi.failed e hf
  refine ⟨seqLoop_error J cs false x hx e (by simp [hr, hc]), x, hx, hr, hc⟩

/-- C62, a finding: when a sub-report raises and nothing else does, the main process waits for its
result forever: it neither ends nor fails. -/
theorem C62_hangs (P : Int) (cs : List C) (hchk : ∀ x ∈ cs, J.isReport x = false → ∃ x', J.check x = .ok x')
    (x : C) (hx : x ∈ cs) (hr : J.isReport x = true) (e : PyErr) (he : J.run x = .error e)
    (s : MpState C) (h : MpReach J P cs s) :
    (∀ c, s.main ≠ .done c) ∧ ∀ e, s.main ≠ .failed e := by
  constructor
  · intro c hd
    obtain ⟨xs, h1, _⟩ := C62_outcome J P cs s h c hd
    obtain ⟨e', he'⟩ := seqLoop_error J cs false x hx e (by simp [hr, he])
    rw [seqCheck, he'] at h1
    simp at h1
  · intro e' hf
    obtain ⟨_, y, hy, hr', hc⟩ := C62_failed J P cs s h e' hf
    obtain ⟨y', hy'⟩ := hchk y hy hr'
    rw [hc] at hy'
    simp at hy'

/-- C62, a finding: with a negative number of processes no sub-report is ever run, and the main
process never ends. (Zero selects the sequential check.) -/
theorem C62_negative (P : Int) (hP : P ≤ 0) (cs : List C) (x : C) (hx : x ∈ cs)
    (hr : J.isReport x = true) (s : MpState C) (h : MpReach J P cs s) :
    s.begun = [] ∧ ∀ c, s.main ≠ .done c := by
  have hnow : s.workers = [] ∧ s.begun = [] ∧ (∀ k, s.main = .starting k → k = 0) := by
    clear hx hr
    induction h with
    | init =>
      refine ⟨rfl, rfl, fun k hk => ?_⟩
      simp only [mpInit, MainPc.starting.injEq] at hk
      omega
    | step _ hs ih =>
      obtain ⟨h1, h2, h3⟩ := ih
      cases hs <;> simp_all
  refine ⟨hnow.2.1, fun c hd => ?_⟩
  obtain ⟨xs, _, _, _, h4⟩ := C62_outcome J P cs s h c hd
  obtain ⟨i, hi, hix⟩ := List.getElem_of_mem hx
  have := (h4 i).2 ⟨x, by rw [List.getElem?_eq_getElem hi, hix], hr⟩
  rw [hnow.2.1] at this
  simp at this

/-- C62 in full: with any number of processes other than zero (which selects the sequential check),
a parallel check in which nothing more can happen has the outcome of the sequential check, which
may be an exception. -/
def C62_full : Prop :=
  ∀ (C : Type) (J : Jobs C) (P : Int), P ≠ 0 → ∀ (cs : List C) (s : MpState C), MpReach J P cs s →
    (∀ s', ¬ MpStep J (enqueued J 0 cs).length s s') →
    match seqCheck J cs with
    | .ok (xs, c) => s.main = .done c ∧ s.changes = xs.map some
    | .error _ => ∃ e, s.main = .failed e

/-- One process, one sub-report, and it raises. -/
theorem C62_full_fails : ¬ C62_full := by
  intro h
  let J : Jobs Unit := ⟨fun _ => true, fun _ => .ok (), fun _ => .error .typeError, fun _ => true⟩
  have s0 : MpReach J 1 [()] ⟨.starting 1, [some (0, ())], [], [], [none], []⟩ := .init
  have s1 := s0.step (.start ..)
  have s2 := s1.step (.take _ _ _ _ [] [] _ _ _)
  have s3 := s2.step (.crash _ _ [] [] _ _ .typeError _ _ _ rfl)
  have s4 := s3.step (.started ..)
  have s5 := s4.step (.skip _ _ _ _ _ _ rfl)
  have s6 := s5.step (.checked _ _ _ _ _ _ rfl)
  have stuck : ∀ x s' : MpState Unit,
      x = ⟨.getting 1, [none], [.crashed 0 ()], [], [none], [0]⟩ → MpStep J 1 x s' → False := by
    intro x s' hx hs
    cases hs <;> simp_all [List.cons_eq_append_iff, List.append_eq_cons_iff]
  have := h Unit J 1 (by decide) [()] _ s6 fun s' hs => stuck _ s' rfl hs
  obtain ⟨e, he⟩ := this
  cases he

/-! A run with two workers that finish in the other order -/

/-- Changes are numbers; the even ones are sub-reports, which are run by adding 100. -/
def demoJobs : Jobs Nat where
  isReport n := n % 2 == 0
  check n := .ok (n + 1)
  run n := .ok (n + 100)
  isChange n := n > 105

example : seqCheck demoJobs [2, 3, 6] = .ok ([102, 4, 106], true) := by decide

example : MpReach demoJobs 5 [2, 3, 6]
    ⟨.done true, [none], [.waiting, .ended], [], [some 102, some 4, some 106], [0, 2]⟩ := by
  have s0 : MpReach demoJobs 5 [2, 3, 6]
    ⟨.starting 2, [some (0, 2), some (2, 6)], [], [], [none, some 3, none], []⟩ := .init
  have s1 := s0.step (.start ..)
  have s2 := s1.step (.take _ _ _ _ [] [] _ _ _)
  have s3 := s2.step (.start ..)
  have s4 := s3.step (.take _ _ _ _ [.busy 0 2] [] _ _ _)
  have s5 := s4.step (.put _ _ [.busy 0 2] [] 2 6 106 _ _ _ rfl)
  have s6 := s5.step (.stop _ _ [.busy 0 2] [] _ _ _)
  have s7 := s6.step (.started ..)
  have s8 := s7.step (.skip _ _ _ _ _ _ rfl)
  have s9 := s8.step (.check _ _ _ _ _ _ 3 4 rfl rfl)
  have s10 := s9.step (.skip _ _ _ _ _ _ rfl)
  have s11 := s10.step (.checked _ _ _ _ _ _ rfl)
  have s12 := s11.step (.get _ _ _ [] [] _ _ _ _)
  have s13 := s12.step (.put _ _ [] [.ended] 0 2 102 _ _ _ rfl)
  have s14 := s13.step (.get _ _ _ [] [] _ _ _ _)
  exact s14.step (.finish _ _ _ [102, 4, 106] _)

end Javatools
