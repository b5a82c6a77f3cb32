import Verif.Props.Manifest
/-
C69: section bookkeeping.
-/
namespace Javatools

/-- One call on a manifest. -/
inductive MOp where
  /-- `m.create_section(name, overwrite)` -/
  | create (name : Str) (overwrite : Bool)
  /-- `m.sub_sections[name][k] = v` -/
  | setSub (name k v : Str)
  /-- `m[k] = v` -/
  | setMain (k v : Str)
  /-- `m.clear()` -/
  | clear

/-- The manifest after the call; a call that raises changes nothing. -/
def MOp.run (m : Manifest) : MOp → Manifest
  | .create n o => (createSection m n o).2
  | .setSub n k v =>
    match PyDict.get? m.subs n with
    | none => m
    | some s =>
      match setItem s k v with
      | .error _ => m
      | .ok s' => { m with subs := PyDict.set m.subs n s' }
  | .setMain k v =>
    match setItem m.main k v with
    | .error _ => m
    | .ok s => { m with main := s }
  | .clear => m.clear

/-- The manifest after a history of calls. -/
def runOps (pk : Str) (ops : List MOp) : Manifest :=
  ops.foldl MOp.run (Manifest.new pk "1.0".toList none)

/-! ### Specification -/

/-- The assignments made to the section `n` since it was (last) created; `none` if there is none. -/
def logStep (n : Str) (log : Option (List (Str × Str))) : MOp → Option (List (Str × Str))
  | .create m o =>
    if m = n then
      match o, log with
      | false, some l => some l
      | _, _ => some [(kName, n)]
    else log
  | .setSub m k v => if m = n ∧ k.length ≤ 68 then log.map (· ++ [(k, v)]) else log
  | .setMain _ _ => log
  | .clear => none

def sectionLog (n : Str) (ops : List MOp) : Option (List (Str × Str)) := ops.foldl (logStep n) none

/-- The assignments made to the main section since the last `clear`. -/
def mainStep (log : List (Str × Str)) : MOp → List (Str × Str)
  | .setMain k v => if k.length ≤ 68 then log ++ [(k, v)] else log
  | .clear => []
  | _ => log

def mainLog (pk : Str) (ops : List MOp) : List (Str × Str) :=
  ops.foldl mainStep [(pk, "1.0".toList)]

/-- The section holds the outcome of the assignments: each key once, in the order of its first
assignment, with the value assigned last. -/
def Outcome (log : List (Str × Str)) (s : Section) : Prop :=
  PyDict.keys s = (log.map Prod.fst).eraseDups ∧
    ∀ k, PyDict.get? s k = ((log.filter fun p => decide (p.1 = k)).getLast?).map Prod.snd

/-! ### Proofs -/

theorem eraseDups_snoc {α : Type} [BEq α] [LawfulBEq α] (l : List α) (x : α) :
    (l ++ [x]).eraseDups = if x ∈ l then l.eraseDups else l.eraseDups ++ [x] := by
  have key : ∀ n (l : List α), l.length ≤ n →
      (l ++ [x]).eraseDups = if x ∈ l then l.eraseDups else l.eraseDups ++ [x] := by
    intro n
    induction n with
    | zero =>
      intro l hl
      have : l = [] := List.length_eq_zero_iff.1 (by omega)
      subst this
      simp [List.eraseDups_cons]
    | succ n ih =>
      intro l hl
      cases l with
      | nil => simp [List.eraseDups_cons]
      | cons y l =>
        rw [List.cons_append, List.eraseDups_cons, List.eraseDups_cons, List.filter_append]
        have hlen := List.length_filter_le (fun b => !b == y) l
        simp only [List.length_cons] at hl
        by_cases hx : x = y
        · subst hx
          simp
        · have hf : ([x].filter fun b => !b == y) = [x] := by simp [hx]
          rw [hf, ih _ (by omega)]
          have hm : x ∈ l.filter (fun b => !b == y) ↔ x ∈ l := by
            rw [List.mem_filter]
            simp [hx]
          simp only [List.mem_cons, hx, false_or, hm]
          split <;> simp
  exact key _ l (Nat.le_refl _)

theorem mem_eraseDups' {α : Type} [BEq α] [LawfulBEq α] (l : List α) (x : α) :
    x ∈ l.eraseDups ↔ x ∈ l := List.mem_eraseDups

theorem outcome_set {log : List (Str × Str)} {s : Section} (h : Outcome log s) (k v : Str) :
    Outcome (log ++ [(k, v)]) (PyDict.set s k v) := by
  obtain ⟨h1, h2⟩ := h
  constructor
  · rw [PyDict.keys_set, List.map_append, List.map_cons, List.map_nil, eraseDups_snoc, h1]
    simp only [List.mem_eraseDups]
  · intro k'
    rw [PyDict.get?_set, List.filter_append]
    by_cases hk : k = k'
    · subst hk
      simp
    · simp only [if_neg hk, h2 k']
      have : ([(k, v)].filter fun p => decide (p.1 = k')) = [] := by simp [hk]
      rw [this, List.append_nil]

theorem outcome_single (k v : Str) : Outcome [(k, v)] [(k, v)] := by
  constructor
  · simp [PyDict.keys, List.eraseDups_cons]
  · intro k'
    simp only [PyDict.get?]
    by_cases h : k = k' <;> simp [h]

/-- What a section of the manifest has to do with the log. -/
def Linked (log : Option (List (Str × Str))) (s : Option Section) : Prop :=
  match log, s with
  | none, none => True
  | some l, some s => Outcome l s
  | _, _ => False

theorem run_linked (m : Manifest) (op : MOp) (n : Str) (log : Option (List (Str × Str)))
    (h : Linked log (PyDict.get? m.subs n)) :
    Linked (logStep n log op) (PyDict.get? (op.run m).subs n) := by
  cases op with
  | create name o =>
    simp only [MOp.run, createSection, logStep]
    by_cases hn : name = n
    · subst hn
      simp only [if_true]
      cases o with
      | true => simp [PyDict.get?_set, Linked, newSection, outcome_single]
      | false =>
        simp only [Bool.false_eq_true, if_false]
        cases hg : PyDict.get? m.subs name with
        | some s =>
          rw [hg] at h
          cases log with
          | none => simp [Linked] at h
          | some l => simpa [hg] using h
        | none =>
          rw [hg] at h
          cases log with
          | none => simp [PyDict.get?_set, Linked, newSection, outcome_single]
          | some l => simp [Linked] at h
    · rw [if_neg hn]
      cases o with
      | true => simpa [PyDict.get?_set, hn] using h
      | false =>
        simp only [Bool.false_eq_true, if_false]
        split
        · exact h
        · simpa [PyDict.get?_set, hn] using h
  | setSub name k v =>
    simp only [MOp.run, logStep]
    by_cases hn : name = n
    · subst hn
      cases hg : PyDict.get? m.subs name with
      | none =>
        rw [hg] at h
        cases log with
        | none =>
          simp only [Option.map_none, ite_self]
          rw [hg]
          exact h
        | some l => simp [Linked] at h
      | some s =>
        rw [hg] at h
        cases log with
        | none => simp [Linked] at h
        | some l =>
          simp only [setItem]
          by_cases hk : k.length > 68
          · simp only [if_pos hk]
            rw [if_neg (by omega), hg]
            exact h
          · simp only [if_neg hk]
            rw [if_pos ⟨trivial, by omega⟩]
            simp only [PyDict.get?_set, if_true, Option.map_some]
            exact outcome_set h k v
    · rw [if_neg (fun hh => hn hh.1)]
      split
      · exact h
      · split
        · exact h
        · simpa [PyDict.get?_set, hn] using h
  | setMain k v =>
    simp only [MOp.run, logStep]
    split
    · exact h
    · exact h
  | clear => exact trivial

/-- C69: after any history, a section exists exactly when it was created (and not cleared), and it
holds the outcome of the assignments made since. -/
theorem C69_section (pk : Str) (ops : List MOp) (n : Str) :
    Linked (sectionLog n ops) (PyDict.get? (runOps pk ops).subs n) := by
  unfold sectionLog runOps
  have : ∀ (m : Manifest) (log : Option (List (Str × Str))), Linked log (PyDict.get? m.subs n) →
      Linked (ops.foldl (logStep n) log) (PyDict.get? (ops.foldl MOp.run m).subs n) := by
    induction ops with
    | nil => intro m log h; exact h
    | cons op ops ih => intro m log h; exact ih _ _ (run_linked m op n log h)
  exact this _ _ trivial

/-- C69: the same for the main section. -/
theorem C69_main (pk : Str) (ops : List MOp) : Outcome (mainLog pk ops) (runOps pk ops).main := by
  unfold mainLog runOps
  have : ∀ (m : Manifest) (log : List (Str × Str)), Outcome log m.main →
      Outcome (ops.foldl mainStep log) (ops.foldl MOp.run m).main := by
    induction ops with
    | nil => intro m log h; exact h
    | cons op ops ih =>
      intro m log h
      refine ih _ _ ?_
      cases op with
      | create n o =>
        simp only [MOp.run, createSection, mainStep]
        split
        · exact h
        · split <;> exact h
      | setSub n k v =>
        simp only [MOp.run, mainStep]
        split
        · exact h
        · split <;> exact h
      | setMain k v =>
        simp only [MOp.run, mainStep, setItem]
        by_cases hk : k.length > 68
        · simp only [if_pos hk]
          rw [if_neg (by omega)]
          exact h
        · simp only [if_neg hk]
          rw [if_pos (by omega)]
          exact outcome_set h k v
      | clear => exact ⟨rfl, fun k => rfl⟩
  exact this _ _ (outcome_single pk _)

/-- C69: each name occurs once. -/
theorem C69_names (pk : Str) (ops : List MOp) : (PyDict.keys (runOps pk ops).subs).Nodup := by
  unfold runOps
  have : ∀ (m : Manifest), (PyDict.keys m.subs).Nodup →
      (PyDict.keys (ops.foldl MOp.run m).subs).Nodup := by
    induction ops with
    | nil => intro m h; exact h
    | cons op ops ih =>
      intro m h
      refine ih _ ?_
      cases op with
      | create n o =>
        simp only [MOp.run, createSection]
        split
        · exact PyDict.nodup_keys_set _ _ _ h
        · split
          · exact h
          · exact PyDict.nodup_keys_set _ _ _ h
      | setSub n k v =>
        simp only [MOp.run]
        split
        · exact h
        · split
          · exact h
          · exact PyDict.nodup_keys_set _ _ _ h
      | setMain k v =>
        simp only [MOp.run]
        split <;> exact h
      | clear => simp [MOp.run, Manifest.clear, PyDict.keys]
  exact this _ (by simp [Manifest.new, PyDict.keys])

/-- Every log starts with the name and has only short keys. -/
theorem sectionLog_shape (n : Str) (ops : List MOp) (l : List (Str × Str))
    (h : sectionLog n ops = some l) :
    (∃ r, l = (kName, n) :: r ∧ ∀ p ∈ r, ∃ q ∈ ops, q = .setSub n p.1 p.2) ∧
      ∀ p ∈ l, p.1.length ≤ 68 := by
  unfold sectionLog at h
  have : ∀ (pre post : List MOp) (log : Option (List (Str × Str))),
      (∀ l, log = some l → (∃ r, l = (kName, n) :: r ∧ ∀ p ∈ r, ∃ q ∈ pre, q = .setSub n p.1 p.2) ∧
        ∀ p ∈ l, p.1.length ≤ 68) →
      ∀ l, post.foldl (logStep n) log = some l →
        (∃ r, l = (kName, n) :: r ∧ ∀ p ∈ r, ∃ q ∈ pre ++ post, q = .setSub n p.1 p.2) ∧
          ∀ p ∈ l, p.1.length ≤ 68 := by
    intro pre post
    induction post generalizing pre with
    | nil => intro log hl l h; simpa using hl l h
    | cons op post ih =>
      intro log hl l h
      have := ih (pre ++ [op]) (logStep n log op) ?_ l h
      · simpa [List.append_assoc] using this
      · intro l' h'
        have weaken : ∀ l, log = some l →
            (∃ r, l = (kName, n) :: r ∧ ∀ p ∈ r, ∃ q ∈ pre ++ [op], q = .setSub n p.1 p.2) ∧
              ∀ p ∈ l, p.1.length ≤ 68 := by
          intro l hlog
          obtain ⟨⟨r, h1, h2⟩, h3⟩ := hl l hlog
          refine ⟨⟨r, h1, ?_⟩, h3⟩
          intro p hp
          obtain ⟨q, hq, e⟩ := h2 p hp
          exact ⟨q, by simp [hq], e⟩
        have fresh : ∀ l, some [(kName, n)] = some l →
            (∃ r, l = (kName, n) :: r ∧ ∀ p ∈ r, ∃ q ∈ pre ++ [op], q = .setSub n p.1 p.2) ∧
              ∀ p ∈ l, p.1.length ≤ 68 := by
          intro l hl
          simp only [Option.some.injEq] at hl
          subst hl
          refine ⟨⟨[], rfl, by simp⟩, ?_⟩
          intro p hp
          simp only [List.mem_singleton] at hp
          subst hp
          exact (by decide : kName.length ≤ 68)
        cases op with
        | create m o =>
          simp only [logStep] at h'
          split at h'
          · split at h'
            · exact weaken l' (by assumption)
            · exact fresh l' h'
          · exact weaken l' h'
        | setSub m k v =>
          simp only [logStep] at h'
          split at h'
          · rename_i hc
            obtain ⟨rfl, hk⟩ := hc
            rw [Option.map_eq_some_iff] at h'
            obtain ⟨l0, h0, rfl⟩ := h'
            obtain ⟨⟨r, h1, h2⟩, h3⟩ := weaken l0 h0
            refine ⟨⟨r ++ [(k, v)], by rw [h1]; rfl, ?_⟩, ?_⟩
            · intro p hp
              rcases List.mem_append.1 hp with hp | hp
              · exact h2 p hp
              · simp only [List.mem_singleton] at hp
                subst hp
                exact ⟨_, by simp, rfl⟩
            · intro p hp
              rcases List.mem_append.1 hp with hp | hp
              · exact h3 p hp
              · simp only [List.mem_singleton] at hp
                subst hp
                exact hk
          · exact weaken l' h'
        | setMain k v => exact weaken l' h'
        | clear => simp [logStep] at h'
  simpa using this [] ops none (by simp) l h

/-- C69: no attribute name has more than 68 characters. -/
theorem C69_keys (pk : Str) (hpk : pk.length ≤ 68) (ops : List MOp) :
    (∀ n s, PyDict.get? (runOps pk ops).subs n = some s → ∀ k ∈ PyDict.keys s, k.length ≤ 68) ∧
      ∀ k ∈ PyDict.keys (runOps pk ops).main, k.length ≤ 68 := by
  constructor
  · intro n s hs k hk
    have := C69_section pk ops n
    rw [hs] at this
    cases hl : sectionLog n ops with
    | none => rw [hl] at this; simp [Linked] at this
    | some l =>
      rw [hl] at this
      rw [this.1, List.mem_eraseDups] at hk
      obtain ⟨p, hp, rfl⟩ := List.mem_map.1 hk
      exact (sectionLog_shape n ops l hl).2 p hp
  · intro k hk
    rw [(C69_main pk ops).1, List.mem_eraseDups] at hk
    obtain ⟨p, hp, rfl⟩ := List.mem_map.1 hk
    have step : ∀ (ops : List MOp) (log : List (Str × Str)), (∀ p ∈ log, p.1.length ≤ 68) →
        ∀ p ∈ ops.foldl mainStep log, p.1.length ≤ 68 := by
      intro ops
      induction ops with
      | nil => intro log h; exact h
      | cons op ops ih =>
        intro log h
        refine ih _ ?_
        cases op with
        | setMain k v =>
          simp only [mainStep]
          split
          · intro q hq
            rcases List.mem_append.1 hq with hq | hq
            · exact h q hq
            · simp only [List.mem_singleton] at hq
              subst hq
              assumption
          · exact h
        | clear => simp [mainStep]
        | create => exact h
        | setSub => exact h
    exact step ops _ (by simpa using hpk) p hp

/-- C69: the primary attribute of a section comes first and is its name, unless `Name` was
assigned. -/
theorem C69_primary (pk : Str) (ops : List MOp) (n : Str) (s : Section)
    (hs : PyDict.get? (runOps pk ops).subs n = some s) :
    (PyDict.keys s).head? = some kName ∧
      ((∀ v, MOp.setSub n kName v ∉ ops) → primary s = n) := by
  have h := C69_section pk ops n
  rw [hs] at h
  cases hl : sectionLog n ops with
  | none => rw [hl] at h; simp [Linked] at h
  | some l =>
    rw [hl] at h
    obtain ⟨⟨r, rfl, hr⟩, _⟩ := sectionLog_shape n ops l hl
    constructor
    · rw [h.1, List.map_cons, List.eraseDups_cons]
      rfl
    · intro hno
      have hfil : (r.filter fun p => decide (p.1 = kName)) = [] := by
        rw [List.filter_eq_nil_iff]
        intro p hp
        simp only [decide_eq_true_eq]
        intro he
        obtain ⟨q, hq, rfl⟩ := hr p hp
        rw [he] at hq
        exact hno _ hq
      unfold primary
      rw [h.2, List.filter_cons]
      simp [hfil]

/-- C69: `create_section(overwrite=False)` returns the existing section and changes nothing, or
adds a new section and leaves all others as they were. -/
theorem C69_keep (m : Manifest) (n : Str) :
    (∀ s, PyDict.get? m.subs n = some s → createSection m n false = (s, m)) ∧
      (PyDict.get? m.subs n = none → (createSection m n false).1 = newSection n ∧
        (createSection m n false).2.main = m.main ∧
        ∀ k, PyDict.get? (createSection m n false).2.subs k =
          if n = k then some (newSection n) else PyDict.get? m.subs k) := by
  constructor
  · intro s hs
    simp [createSection, hs]
  · intro hn
    simp [createSection, hn, PyDict.get?_set]

/-- A history: a section is created, changed, kept by a second call and replaced by a third. -/
example : let ops1 : List MOp := [.create "a".toList true, .setSub "a".toList "K".toList "1".toList,
      .setSub "a".toList "L".toList "2".toList, .setSub "a".toList "K".toList "3".toList,
      .create "a".toList false, .setSub "b".toList "K".toList "4".toList]
    (runOps kManifestVersion ops1).subs =
      [("a".toList, [(kName, "a".toList), ("K".toList, "3".toList), ("L".toList, "2".toList)])] ∧
    (runOps kManifestVersion (ops1 ++ [.create "a".toList true])).subs =
      [("a".toList, [(kName, "a".toList)])] := by decide +kernel

end Javatools
