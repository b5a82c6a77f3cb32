import Verif.Spec.Table
import Verif.Props.Lines
import Verif.Props.Opcodes
/-
C154: the table of a method's code in the HTML report.
-/
namespace Javatools

/-! ### Helpers -/

/-- A slot that is covered for `n` rows more. -/
def slotFor (n : Nat) (t : Str) : Nat × Str := if n = 0 then (0, []) else (n, t)

@[simp] theorem slotFor_succ (n : Nat) (t : Str) : slotFor (n + 1) t = (n + 1, t) := by
  simp [slotFor]

@[simp] theorem slotFor_zero (t : Str) : slotFor 0 t = (0, []) := by simp [slotFor]

theorem nextRow_succ (n : Nat) (t : Str) (ps : List (Nat × Str)) :
    nextRow ((n + 1, t) :: ps) = slotFor n t :: nextRow ps := by
  cases n <;> simp [nextRow]

/-- The rows (if any) read as these, from slots `p` on to a fresh start. -/
def Reads (w : Nat) (p : List (Nat × Str)) (rows : Res (List (List Cell)))
    (shown : Res (List (List Str))) : Prop :=
  match rows, shown with
  | .ok rows, .ok ps => ∀ tail, readTable p (rows ++ tail) =
      (readTable (List.replicate w (0, [])) tail).map (ps ++ ·)
  | .error e, .error e' => e = e'
  | _, _ => False

/-- The texts of an instruction. -/
def insnTexts (i : Insn) : Res (Str × Str × Str) :=
  match getOpnameByCode i.code with
  | .error e => .error e
  | .ok name =>
    match argCell i with
    | .error e => .error e
    | .ok a => .ok (natText i.off, name, a)

theorem insnCells_eq (i : Insn) : insnCells i = (insnTexts i).map fun t =>
    [⟨1, 1, t.1⟩, ⟨1, 1, t.2.1⟩, ⟨1, 1, t.2.2⟩] := by
  unfold insnCells insnTexts
  cases getOpnameByCode i.code with
  | error e => rfl
  | ok n => cases argCell i <;> rfl

theorem shownInsn_some (i : Insn) : shownInsn (some i) = (insnTexts i).map fun t =>
    [t.1, t.2.1, t.2.2] := by
  unfold shownInsn insnTexts argCell
  simp only [bind, Except.bind]
  cases getOpnameByCode i.code with
  | error e => rfl
  | ok n =>
    cases hasConstArg i.code with
    | error e => rfl
    | ok b =>
      cases b with
      | false => rfl
      | true => cases firstArg i.args <;> rfl

/-- The rows for these pairs of instructions. -/
def shownPairs (rel : Int) (ll rl : Str) : List (Option Insn × Option Insn) → Res (List (List Str))
  | [] => .ok []
  | (l, r) :: rest =>
    match shownInsn l with
    | .error e => .error e
    | .ok lt =>
      match shownInsn r with
      | .error e => .error e
      | .ok rt =>
        match shownPairs rel ll rl rest with
        | .error e => .error e
        | .ok rows => .ok ((intText rel :: ll :: lt ++ rl :: rt) :: rows)

theorem Reads.step {w : Nat} {p q : List (Nat × Str)} {row : List Cell} {t : List Str}
    {rows : List (List Cell)} {ps : List (List Str)} (hf : fillRow p row = some q)
    (ht : q.map Prod.snd = t) (h : Reads w (nextRow q) (.ok rows) (.ok ps)) :
    Reads w p (.ok (row :: rows)) (.ok (t :: ps)) := by
  intro tail
  rw [List.cons_append, readTable, hf]
  simp only [h tail, ht, Option.map_map]
  rfl

section
variable (rel : Int) (R L : Nat) (left right : MergeSide) (ll rl : Str)

/-- Only the right side goes on, and the left side has its blank cell. -/
theorem reads_right (ys : List Insn) :
    Reads 9 [slotFor ys.length (intText rel), slotFor ys.length ll, slotFor ys.length [],
        slotFor ys.length [], slotFor ys.length [], slotFor ys.length rl, (0, []), (0, []), (0, [])]
      (codeRows rel R L left right false true (ys.map fun y => (none, some y)))
      (shownPairs rel ll rl (ys.map fun y => (none, some y))) := by
  induction ys with
  | nil => intro tail; simp [List.replicate]
  | cons y ys ih =>
    simp only [List.map_cons, codeRows, shownPairs, sideCells, insnCells_eq, shownInsn_some,
      List.length_cons, slotFor_succ]
    rw [show shownInsn none = .ok [[], [], []] from rfl]
    cases insnTexts y with
    | error e => simp [Except.map, Reads]
    | ok t =>
      simp only [Except.map, if_true, Bool.false_eq_true, if_false]
      generalize codeRows rel R L left right false true (ys.map fun y => (none, some y)) = rows at ih
      generalize shownPairs rel ll rl (ys.map fun y => (none, some y)) = ps at ih
      cases rows <;> cases ps <;> try exact ih
      refine Reads.step (q := [(ys.length + 1, intText rel), (ys.length + 1, ll),
        (ys.length + 1, []), (ys.length + 1, []), (ys.length + 1, []), (ys.length + 1, rl),
        (1, t.1), (1, t.2.1), (1, t.2.2)]) ?_ ?_ ?_
      · simp [fillRow]
      · simp
      · simpa only [nextRow_succ, nextRow, slotFor_zero] using ih

/-- Only the left side goes on, and the right side has its blank cell. -/
theorem reads_left (xs : List Insn) :
    Reads 9 [slotFor xs.length (intText rel), slotFor xs.length ll, (0, []), (0, []), (0, []),
        slotFor xs.length rl, slotFor xs.length [], slotFor xs.length [], slotFor xs.length []]
      (codeRows rel R L left right false true (xs.map fun x => (some x, none)))
      (shownPairs rel ll rl (xs.map fun x => (some x, none))) := by
  induction xs with
  | nil => intro tail; simp [List.replicate]
  | cons y xs ih =>
    simp only [List.map_cons, codeRows, shownPairs, sideCells, insnCells_eq, shownInsn_some,
      List.length_cons, slotFor_succ]
    rw [show shownInsn none = .ok [[], [], []] from rfl]
    cases insnTexts y with
    | error e => simp [Except.map, Reads]
    | ok t =>
      simp only [Except.map, if_true, Bool.false_eq_true, if_false]
      generalize codeRows rel R L left right false true (xs.map fun x => (some x, none)) = rows at ih
      generalize shownPairs rel ll rl (xs.map fun x => (some x, none)) = ps at ih
      cases rows <;> cases ps <;> try exact ih
      refine Reads.step (q := [(xs.length + 1, intText rel), (xs.length + 1, ll),
        (1, t.1), (1, t.2.1), (1, t.2.2),
        (xs.length + 1, rl), (xs.length + 1, []), (xs.length + 1, []), (xs.length + 1, [])]) ?_ ?_ ?_
      · simp [fillRow]
      · simp
      · simpa only [nextRow_succ, nextRow, slotFor_zero] using ih

/-- The left side has just ended. -/
theorem reads_right_start (ys : List Insn) (hL : ys ≠ [] → L = ys.length) :
    Reads 9 [slotFor ys.length (intText rel), slotFor ys.length ll, (0, []), (0, []), (0, []),
        slotFor ys.length rl, (0, []), (0, []), (0, [])]
      (codeRows rel R L left right false false (ys.map fun y => (none, some y)))
      (shownPairs rel ll rl (ys.map fun y => (none, some y))) := by
  cases ys with
  | nil => intro tail; simp [List.replicate]
  | cons y ys =>
    have ih := reads_right rel R L left right ll rl ys
    have hL : L = ys.length + 1 := by simpa using hL
    simp only [List.map_cons, codeRows, shownPairs, sideCells, insnCells_eq, shownInsn_some,
      List.length_cons, slotFor_succ]
    rw [show shownInsn none = .ok [[], [], []] from rfl]
    cases insnTexts y with
    | error e => simp [Except.map, Reads]
    | ok t =>
      simp only [Except.map, if_true, Bool.false_eq_true, if_false]
      generalize codeRows rel R L left right false true (ys.map fun y => (none, some y)) = rows at ih
      generalize shownPairs rel ll rl (ys.map fun y => (none, some y)) = ps at ih
      cases rows <;> cases ps <;> try exact ih
      refine Reads.step (q := [(ys.length + 1, intText rel), (ys.length + 1, ll),
        (ys.length + 1, []), (ys.length + 1, []), (ys.length + 1, []), (ys.length + 1, rl),
        (1, t.1), (1, t.2.1), (1, t.2.2)]) ?_ ?_ ?_
      · simp [fillRow, hL]
      · simp
      · simpa only [nextRow_succ, nextRow, slotFor_zero] using ih

/-- The right side has just ended. -/
theorem reads_left_start (xs : List Insn) (hL : xs ≠ [] → L = xs.length) :
    Reads 9 [slotFor xs.length (intText rel), slotFor xs.length ll, (0, []), (0, []), (0, []),
        slotFor xs.length rl, (0, []), (0, []), (0, [])]
      (codeRows rel R L left right false false (xs.map fun x => (some x, none)))
      (shownPairs rel ll rl (xs.map fun x => (some x, none))) := by
  cases xs with
  | nil => intro tail; simp [List.replicate]
  | cons y xs =>
    have ih := reads_left rel R L left right ll rl xs
    have hL : L = xs.length + 1 := by simpa using hL
    simp only [List.map_cons, codeRows, shownPairs, sideCells, insnCells_eq, shownInsn_some,
      List.length_cons, slotFor_succ]
    rw [show shownInsn none = .ok [[], [], []] from rfl]
    cases insnTexts y with
    | error e => simp [Except.map, Reads]
    | ok t =>
      simp only [Except.map, if_true, Bool.false_eq_true, if_false]
      generalize codeRows rel R L left right false true (xs.map fun x => (some x, none)) = rows at ih
      generalize shownPairs rel ll rl (xs.map fun x => (some x, none)) = ps at ih
      cases rows <;> cases ps <;> try exact ih
      refine Reads.step (q := [(xs.length + 1, intText rel), (xs.length + 1, ll),
        (1, t.1), (1, t.2.1), (1, t.2.2),
        (xs.length + 1, rl), (xs.length + 1, []), (xs.length + 1, []), (xs.length + 1, [])]) ?_ ?_ ?_
      · simp [fillRow, hL]
      · simp
      · simpa only [nextRow_succ, nextRow, slotFor_zero] using ih

theorem zipPairs_nil_right {β γ : Type} (xs : List β) :
    zipPairs xs ([] : List γ) = xs.map fun x => (some x, none) := by
  cases xs <;> simp [zipPairs]

/-- Both sides go on. -/
theorem reads_both (xs ys : List Insn)
    (hL : xs.length ≠ ys.length → L = max xs.length ys.length - min xs.length ys.length) :
    Reads 9 [slotFor (max xs.length ys.length) (intText rel), slotFor (max xs.length ys.length) ll,
        (0, []), (0, []), (0, []),
        slotFor (max xs.length ys.length) rl, (0, []), (0, []), (0, [])]
      (codeRows rel R L left right false false (zipPairs xs ys))
      (shownPairs rel ll rl (zipPairs xs ys)) := by
  induction xs generalizing ys with
  | nil =>
    have := reads_right_start rel R L left right ll rl ys (by
      intro h
      have : ys.length ≠ 0 := by simpa using h
      rw [hL (by simpa using this.symm)]; simp)
    simpa [zipPairs] using this
  | cons x xs ih =>
    cases ys with
    | nil =>
      have := reads_left_start rel R L left right ll rl (x :: xs) (by
        intro _; rw [hL (by simp)]; simp)
      rw [zipPairs_nil_right]
      simpa using this
    | cons y ys =>
      have ih := ih ys (by
        intro h
        rw [hL (by simpa using h)]
        simp only [List.length_cons]; omega)
      have hm : max (x :: xs).length (y :: ys).length = max xs.length ys.length + 1 := by
        simp only [List.length_cons]; omega
      rw [hm]
      simp only [zipPairs, codeRows, shownPairs, sideCells, insnCells_eq, shownInsn_some,
        slotFor_succ]
      generalize max xs.length ys.length = n at ih ⊢
      cases insnTexts x with
      | error e => simp [Except.map, Reads]
      | ok t =>
        cases insnTexts y with
        | error e => simp [Except.map, Reads]
        | ok u =>
          simp only [Except.map, Bool.false_eq_true, if_false]
          generalize codeRows rel R L left right false false (zipPairs xs ys) = rows at ih
          generalize shownPairs rel ll rl (zipPairs xs ys) = ps at ih
          cases rows <;> cases ps <;> try exact ih
          refine Reads.step (q := [(n + 1, intText rel), (n + 1, ll),
            (1, t.1), (1, t.2.1), (1, t.2.2),
            (n + 1, rl), (1, u.1), (1, u.2.1), (1, u.2.2)]) ?_ ?_ ?_
          · simp [fillRow]
          · simp
          · simpa only [nextRow_succ, nextRow, slotFor_zero] using ih
end

/-- The rows of a relative line. -/
theorem reads_group (rel : Int) (left right : MergeSide) :
    Reads 9 (List.replicate 9 (0, [])) (codeGroup rel left right)
      (shownPairs rel (shownSideLine left) (shownSideLine right)
        (zipPairs (sideInsns left) (sideInsns right))) := by
  unfold codeGroup
  simp only
  generalize hR : max (sideInsns left).length (sideInsns right).length = R
  generalize hL : R - min (sideInsns left).length (sideInsns right).length = L
  cases hl : sideInsns left with
  | nil =>
    cases hr : sideInsns right with
    | nil => intro tail; simp [zipPairs]
    | cons y ys =>
      have hrs : ∃ n, right = some (n, y :: ys) := by
        cases right with
        | none => simp [sideInsns] at hr
        | some p => exact ⟨p.1, by simp [sideInsns] at hr; rw [← hr]⟩
      obtain ⟨n, rfl⟩ := hrs
      have hll : shownSideLine left = [] := by
        cases left with
        | none => rfl
        | some p => obtain ⟨a, b⟩ := p; simp [sideInsns] at hl; rw [hl]; rfl
      rw [hl, hr] at hR hL
      have hR' : R = ys.length + 1 := by simpa using hR.symm
      have hL' : L = ys.length + 1 := by rw [← hL, hR']; simp
      have ih := reads_right rel R L left (some (n, y :: ys)) [] (natText n) ys
      rw [hll, show shownSideLine (some (n, y :: ys)) = natText n from rfl]
      simp only [zipPairs, List.map_cons, codeRows, shownPairs, sideCells, sideLine, insnCells_eq,
        shownInsn_some]
      rw [show shownInsn none = .ok [[], [], []] from rfl]
      cases insnTexts y with
      | error e => simp [Except.map, Reads]
      | ok t =>
        simp only [Except.map, if_true, Bool.false_eq_true, if_false]
        generalize codeRows rel R L left (some (n, y :: ys)) false true
          (ys.map fun y => (none, some y)) = rows at ih
        generalize shownPairs rel [] (natText n) (ys.map fun y => (none, some y)) = ps at ih
        cases rows <;> cases ps <;> try exact ih
        refine Reads.step (q := [(ys.length + 1, intText rel), (ys.length + 1, []),
          (ys.length + 1, []), (ys.length + 1, []), (ys.length + 1, []), (ys.length + 1, natText n),
          (1, t.1), (1, t.2.1), (1, t.2.2)]) ?_ ?_ ?_
        · simp [fillRow, hL', hR', List.replicate]
        · simp
        · simpa only [nextRow_succ, nextRow, slotFor_zero] using ih
  | cons x xs =>
    have hls : ∃ n, left = some (n, x :: xs) := by
      cases left with
      | none => simp [sideInsns] at hl
      | some p => exact ⟨p.1, by simp [sideInsns] at hl; rw [← hl]⟩
    obtain ⟨m, rfl⟩ := hls
    cases hr : sideInsns right with
    | nil =>
      have hrl : shownSideLine right = [] := by
        cases right with
        | none => rfl
        | some p => obtain ⟨a, b⟩ := p; simp [sideInsns] at hr; rw [hr]; rfl
      rw [hl, hr] at hR hL
      have hR' : R = xs.length + 1 := by simpa using hR.symm
      have hL' : L = xs.length + 1 := by rw [← hL, hR']; simp
      have ih := reads_left rel R L (some (m, x :: xs)) right (natText m) [] xs
      rw [hrl, show shownSideLine (some (m, x :: xs)) = natText m from rfl]
      simp only [zipPairs, codeRows, shownPairs, sideCells, sideLine, insnCells_eq,
        shownInsn_some]
      rw [show shownInsn none = .ok [[], [], []] from rfl]
      cases insnTexts x with
      | error e => simp [Except.map, Reads]
      | ok t =>
        simp only [Except.map, if_true, Bool.false_eq_true, if_false]
        generalize codeRows rel R L (some (m, x :: xs)) right false true
          (xs.map fun y => (some y, none)) = rows at ih
        generalize shownPairs rel (natText m) [] (xs.map fun y => (some y, none)) = ps at ih
        cases rows <;> cases ps <;> try exact ih
        refine Reads.step (q := [(xs.length + 1, intText rel), (xs.length + 1, natText m),
          (1, t.1), (1, t.2.1), (1, t.2.2), (xs.length + 1, []),
          (xs.length + 1, []), (xs.length + 1, []), (xs.length + 1, [])]) ?_ ?_ ?_
        · simp [fillRow, hL', hR', List.replicate]
        · simp
        · simpa only [nextRow_succ, nextRow, slotFor_zero] using ih
    | cons y ys =>
      have hrs : ∃ n, right = some (n, y :: ys) := by
        cases right with
        | none => simp [sideInsns] at hr
        | some p => exact ⟨p.1, by simp [sideInsns] at hr; rw [← hr]⟩
      obtain ⟨n, rfl⟩ := hrs
      rw [hl, hr] at hR hL
      have hR' : R = max xs.length ys.length + 1 := by rw [← hR]; simp only [List.length_cons]; omega
      have ih := reads_both rel R L (some (m, x :: xs)) (some (n, y :: ys)) (natText m) (natText n)
        xs ys (by intro _; rw [← hL, hR']; simp only [List.length_cons]; omega)
      rw [show shownSideLine (some (m, x :: xs)) = natText m from rfl,
        show shownSideLine (some (n, y :: ys)) = natText n from rfl]
      simp only [zipPairs, codeRows, shownPairs, sideCells, sideLine, insnCells_eq,
        shownInsn_some]
      rw [hR'] at ih ⊢
      generalize max xs.length ys.length = k at ih ⊢
      cases insnTexts x with
      | error e => simp [Except.map, Reads]
      | ok t =>
        cases insnTexts y with
        | error e => simp [Except.map, Reads]
        | ok u =>
          simp only [Except.map, if_true]
          generalize codeRows rel (k + 1) L (some (m, x :: xs)) (some (n, y :: ys)) false false
            (zipPairs xs ys) = rows at ih
          generalize shownPairs rel (natText m) (natText n) (zipPairs xs ys) = ps at ih
          cases rows <;> cases ps <;> try exact ih
          refine Reads.step (q := [(k + 1, intText rel), (k + 1, natText m),
            (1, t.1), (1, t.2.1), (1, t.2.2), (k + 1, natText n),
            (1, u.1), (1, u.2.1), (1, u.2.2)]) ?_ ?_ ?_
          · simp [fillRow, List.replicate]
          · simp
          · simpa only [nextRow_succ, nextRow, slotFor_zero] using ih

/-! ### The whole table -/

/-- The rows of a group of the unchanged code. -/
def shownPlain (g : LineGroup) : Res (List (List Str)) :=
  g.insns.mapM fun i => do
    .ok (intText g.relLine :: natText g.absLine :: (← shownInsn (some i)))

theorem reads_plain_rest (R : Nat) (g : LineGroup) (is : List Insn) :
    Reads 5 [slotFor is.length (intText g.relLine), slotFor is.length (natText g.absLine),
        (0, []), (0, []), (0, [])] (plainRows R g false is)
      (is.mapM fun i => do
        .ok (intText g.relLine :: natText g.absLine :: (← shownInsn (some i)))) := by
  induction is with
  | nil => intro tail; simp [List.replicate]
  | cons i is ih =>
    rw [List.mapM_cons]
    simp only [plainRows, insnCells_eq, shownInsn_some, List.length_cons, slotFor_succ, bind,
      Except.bind] at ih ⊢
    cases insnTexts i with
    | error e => simp [Except.map, Reads]
    | ok t =>
      simp only [Except.map, Bool.false_eq_true, if_false] at ih ⊢
      generalize plainRows R g false is = rows at ih
      revert ih
      generalize List.mapM (m := Except PyErr) _ is = ps
      intro ih
      cases rows <;> cases ps <;> try exact ih
      refine Reads.step (q := [(is.length + 1, intText g.relLine), (is.length + 1, natText g.absLine),
        (1, t.1), (1, t.2.1), (1, t.2.2)]) ?_ ?_ ?_
      · simp [fillRow]
      · simp
      · simpa only [nextRow_succ, nextRow, slotFor_zero] using ih

theorem reads_plain (g : LineGroup) :
    Reads 5 (List.replicate 5 (0, [])) (plainRows g.insns.length g true g.insns) (shownPlain g) := by
  unfold shownPlain
  cases hi : g.insns with
  | nil => intro tail; simp
  | cons i is =>
    have ih := reads_plain_rest (is.length + 1) g is
    rw [List.mapM_cons]
    simp only [plainRows, insnCells_eq, shownInsn_some, List.length_cons, bind,
      Except.bind] at ih ⊢
    cases insnTexts i with
    | error e => simp [Except.map, Reads]
    | ok t =>
      simp only [Except.map, if_true] at ih ⊢
      generalize plainRows (is.length + 1) g false is = rows at ih
      revert ih
      generalize List.mapM (m := Except PyErr) _ is = ps
      intro ih
      cases rows <;> cases ps <;> try exact ih
      refine Reads.step (q := [(is.length + 1, intText g.relLine), (is.length + 1, natText g.absLine),
        (1, t.1), (1, t.2.1), (1, t.2.2)]) ?_ ?_ ?_
      · simp [fillRow, List.replicate]
      · simp
      · simpa only [nextRow_succ, nextRow, slotFor_zero] using ih

theorem Reads.append {w : Nat} {a b : List (List Cell)} {s t : List (List Str)}
    (h1 : Reads w (List.replicate w (0, [])) (.ok a) (.ok s))
    (h2 : Reads w (List.replicate w (0, [])) (.ok b) (.ok t)) :
    Reads w (List.replicate w (0, [])) (.ok (a ++ b)) (.ok (s ++ t)) := by
  intro tail
  rw [List.append_assoc, h1, h2, Option.map_map]
  congr 1
  funext x
  simp

theorem reads_concat {β : Type} (w : Nat) (f : β → Res (List (List Cell)))
    (g : β → Res (List (List Str))) (h : ∀ x, Reads w (List.replicate w (0, [])) (f x) (g x))
    (xs : List β) : Reads w (List.replicate w (0, [])) (concatRes f xs) (concatRes g xs) := by
  induction xs with
  | nil => intro tail; simp [concatRes]
  | cons x xs ih =>
    have hx := h x
    simp only [concatRes]
    generalize f x = a at hx
    generalize g x = s at hx
    generalize concatRes f xs = b at ih
    generalize concatRes g xs = t at ih
    cases a with
    | error e =>
      cases s with
      | error e' => exact hx
      | ok s => exact hx.elim
    | ok a =>
      cases s with
      | error e' => exact hx.elim
      | ok s =>
        cases b with
        | error e =>
          cases t with
          | error e' => exact ih
          | ok t => exact ih.elim
        | ok b =>
          cases t with
          | error e' => exact ih.elim
          | ok t => exact Reads.append hx ih

theorem Reads.read {w : Nat} {rows : Res (List (List Cell))} {shown : Res (List (List Str))}
    (h : Reads w (List.replicate w (0, [])) rows shown) :
    rows.map (readColumns w) = shown.map some := by
  cases rows <;> cases shown <;> simp only [Reads] at h
  · rw [h]; rfl
  · have := h []
    simp only [List.append_nil, readTable] at this
    simp [Except.map, readColumns, this]

theorem zipPairs_eq {β γ : Type} (xs : List β) (ys : List γ) :
    zipPairs xs ys = (List.range (max xs.length ys.length)).map fun k => (xs[k]?, ys[k]?) := by
  induction xs generalizing ys with
  | nil =>
    simp only [zipPairs, List.length_nil, Nat.zero_max]
    apply List.ext_getElem <;> simp
  | cons x xs ih =>
    cases ys with
    | nil =>
      rw [zipPairs_nil_right]
      apply List.ext_getElem
      · simp
      · intro i h1 h2
        simp only [List.length_map, List.length_cons] at h1
        rw [List.getElem_map, List.getElem_map, List.getElem_range, List.getElem?_eq_getElem h1]
        simp
    | cons y ys =>
      have : max (x :: xs).length (y :: ys).length = max xs.length ys.length + 1 := by
        simp only [List.length_cons]; omega
      rw [zipPairs, ih, this, List.range_succ_eq_map, List.map_cons, List.map_map]
      rfl

theorem shownPairs_eq (rel : Int) (left right : MergeSide) (ks : List Nat) :
    shownPairs rel (shownSideLine left) (shownSideLine right)
      (ks.map fun k => ((sideInsns left)[k]?, (sideInsns right)[k]?)) =
      ks.mapM (shownRow rel left right) := by
  induction ks with
  | nil => rfl
  | cons k ks ih =>
    rw [List.map_cons, shownPairs, ih, List.mapM_cons, shownRow]
    simp only [bind, Except.bind]
    cases shownInsn (sideInsns left)[k]? with
    | error e => rfl
    | ok a =>
      cases shownInsn (sideInsns right)[k]? with
      | error e => rfl
      | ok b =>
        simp only
        cases List.mapM (shownRow rel left right) ks <;> rfl

theorem shownGroup_eq (rel : Int) (left right : MergeSide) :
    shownPairs rel (shownSideLine left) (shownSideLine right)
      (zipPairs (sideInsns left) (sideInsns right)) = shownGroup rel left right := by
  rw [zipPairs_eq, shownPairs_eq]; rfl

theorem insertRel_perm {β : Type} (x : Int × β) (l : List (Int × β)) :
    (insertRel x l).Perm (x :: l) := by
  induction l with
  | nil => exact .refl _
  | cons y l ih =>
    simp only [insertRel]
    split
    · exact .refl _
    · exact (ih.cons y).trans (.swap x y l)

theorem sortRel_perm {β : Type} (l : List (Int × β)) : (sortRel l).Perm l := by
  induction l with
  | nil => exact .refl _
  | cons x l ih => exact (insertRel_perm x _).trans (ih.cons x)

theorem insertRel_sorted {β : Type} (x : Int × β) (l : List (Int × β))
    (h : l.Pairwise fun a b => a.1 ≤ b.1) : (insertRel x l).Pairwise fun a b => a.1 ≤ b.1 := by
  induction l with
  | nil => simp [insertRel]
  | cons y l ih =>
    simp only [insertRel]
    rw [List.pairwise_cons] at h
    split
    · rename_i hx
      refine List.pairwise_cons.2 ⟨fun b hb => ?_, List.pairwise_cons.2 h⟩
      rcases List.mem_cons.1 hb with rfl | hb
      · omega
      · have := h.1 b hb; omega
    · rename_i hx
      refine List.pairwise_cons.2 ⟨fun b hb => ?_, ih h.2⟩
      rcases List.mem_cons.1 ((insertRel_perm x l).mem_iff.1 hb) with rfl | hb
      · omega
      · exact h.1 b hb

theorem sortRel_sorted {β : Type} (l : List (Int × β)) :
    (sortRel l).Pairwise fun a b => a.1 ≤ b.1 := by
  induction l with
  | nil => simp [sortRel]
  | cons x l ih => exact insertRel_sorted x _ ih

/-- C154: the cells of the table of changed code make up nine full columns. Read row by row, they
show for each relative line, in increasing order, the instructions of both sides side by side,
each with its offset, name and operands, beside the relative line and the line of its side. -/
theorem C154_changed (merged : PyDict Int (MergeSide × MergeSide)) :
    ∃ order : List (Int × MergeSide × MergeSide), order.Perm merged ∧
      order.Pairwise (fun a b => a.1 ≤ b.1) ∧
      (codeTable merged).map (readColumns 9) =
        (concatRes (fun p => shownGroup p.1 p.2.1 p.2.2) order).map some := by
  refine ⟨sortRel merged, sortRel_perm _, sortRel_sorted _, ?_⟩
  apply Reads.read
  exact reads_concat 9 _ _ (fun p => shownGroup_eq p.1 p.2.1 p.2.2 ▸ reads_group p.1 p.2.1 p.2.2) _

/-- C154: the cells of the table of unchanged code make up five full columns: relative line, line,
offset, name and operands of every instruction in order. -/
theorem C154_unchanged (c : CodeInfo) {gs : List LineGroup} (h : c.iterCodeByLines = .ok gs) :
    (unchangedCode (some c)).map (Option.map (readColumns 5)) =
      (concatRes shownPlain gs).map fun t => some (some t) := by
  have hr := (reads_concat 5 (fun g => plainRows g.insns.length g true g.insns) shownPlain
    reads_plain gs).read
  simp only [unchangedCode, h]
  revert hr
  generalize concatRes (fun g => plainRows g.insns.length g true g.insns) gs = a
  generalize concatRes shownPlain gs = b
  intro hr
  cases a <;> cases b <;> simp_all [Except.map]

/-! ### Every instruction can be shown -/

theorem insnTexts_ok {bc : Bytes} {i : Insn} (h : i ∈ (disassemble bc).1) :
    ∃ t, insnTexts i = .ok t := by
  obtain ⟨fmt, o, hf, hu⟩ := yielded _ _ _ _ h
  unfold getArgFormat at hf
  cases hd : opLookup (.val i.code) with
  | error e => rw [hd] at hf; simp [Except.map] at hf
  | ok d =>
    rw [hd] at hf
    simp only [Except.map, Except.ok.injEq] at hf
    have hm : d ∈ opDefs := by
      unfold opLookup at hd
      split at hd
      · rename_i d' hg
        simp only [Except.ok.injEq] at hd
        subst hd
        have := PyDict.mem_of_get? hg
        simp only [opTable, List.mem_flatMap, List.mem_cons, Prod.mk.injEq, List.not_mem_nil,
          or_false] at this
        obtain ⟨d'', h1, h2⟩ := this
        rcases h2 with h2 | h2
        · simp at h2
        · rw [h2.2]; exact h1
      · simp at hd
    have tab : ∀ d ∈ opDefs, d.const = true →
        (match d.fmt with | .struct (_ :: _) => true | _ => false) = true := by decide +kernel
    unfold insnTexts getOpnameByCode argCell hasConstArg
    simp only [hd, Except.map]
    cases hc : d.const with
    | false => exact ⟨_, rfl⟩
    | true =>
      have := tab d hm hc
      rw [hf] at this
      split at this
      · rename_i c cs
        simp only [unpackArgs, opUnpack] at hu
        split at hu
        · simp at hu
        · rename_i vs o' hv
          split at hv
          · simp at hv
          · simp only [Except.ok.injEq, Prod.mk.injEq, structUnpack] at hv hu
            rw [← hu.1, ← hv.1]
            exact ⟨_, rfl⟩
      · simp at this

theorem groupLoop_insns (lnt : List (Nat × Nat)) (off : Nat) (cur : Option (Nat × List Insn))
    (dis : List Insn) {g : LineGroup} (hg : g ∈ groupLoop lnt off cur dis) {i : Insn}
    (hi : i ∈ g.insns) : i ∈ (cur.map Prod.snd).getD [] ∨ i ∈ dis := by
  induction dis generalizing cur with
  | nil =>
    cases cur with
    | none => simp [groupLoop] at hg
    | some p =>
      obtain ⟨line, c⟩ := p
      simp only [groupLoop] at hg
      split at hg
      · simp only [List.mem_singleton] at hg; subst hg; exact .inl hi
      · simp at hg
  | cons j dis ih =>
    cases cur with
    | none =>
      rw [groupLoop] at hg
      rcases ih _ hg with h | h
      · simp at h; simp [h]
      · simp [h]
    | some p =>
      obtain ⟨line, c⟩ := p
      simp only [groupLoop] at hg
      split at hg
      · rcases ih _ hg with h | h
        · simp at h; rcases h with h | h <;> simp [h]
        · simp [h]
      · rcases List.mem_cons.1 hg with rfl | hg
        · exact .inl hi
        · rcases ih _ hg with h | h
          · simp at h; simp [h]
          · simp [h]

theorem codeByLines_insns (lnt : List (Nat × Nat)) (dis : List Insn) {g : LineGroup}
    (hg : g ∈ codeByLines lnt dis) {i : Insn} (hi : i ∈ g.insns) : i ∈ dis := by
  unfold codeByLines at hg
  split at hg
  · simp only [List.mem_singleton] at hg; subst hg; exact hi
  · rcases groupLoop_insns _ _ _ _ hg hi with h | h
    · simp at h
    · exact h

theorem iterCodeByLines_insns {c : CodeInfo} {gs : List LineGroup}
    (h : c.iterCodeByLines = .ok gs) {g : LineGroup} (hg : g ∈ gs) {i : Insn} (hi : i ∈ g.insns) :
    ∃ t, insnTexts i = .ok t := by
  unfold CodeInfo.iterCodeByLines at h
  simp only [bind, Except.bind] at h
  cases hl : c.getLinenumbertable with
  | error e => rw [hl] at h; simp at h
  | ok lnt =>
    rw [hl] at h
    simp only at h
    cases hd : c.disassemble with
    | error e => rw [hd] at h; simp at h
    | ok dis =>
      rw [hd] at h
      simp only [Except.ok.injEq] at h
      subst h
      have := codeByLines_insns _ _ hg hi
      unfold CodeInfo.disassemble disassembleAll at hd
      split at hd
      · rename_i is hh
        simp only [Except.ok.injEq] at hd
        subst hd
        exact insnTexts_ok (bc := c.code) (by rw [hh]; exact this)
      · simp at hd

theorem shownInsn_ok {o : Option Insn} (h : ∀ i, o = some i → ∃ t, insnTexts i = .ok t) :
    ∃ t, shownInsn o = .ok t := by
  cases o with
  | none => exact ⟨_, rfl⟩
  | some i =>
    obtain ⟨t, ht⟩ := h i rfl
    rw [shownInsn_some, ht]
    exact ⟨_, rfl⟩

theorem mapM_all_ok {β γ : Type} (f : β → Res γ) (xs : List β) (h : ∀ x ∈ xs, ∃ y, f x = .ok y) :
    ∃ ys, xs.mapM f = .ok ys := by
  induction xs with
  | nil => exact ⟨[], rfl⟩
  | cons x xs ih =>
    obtain ⟨y, hy⟩ := h x (by simp)
    obtain ⟨ys, hys⟩ := ih fun z hz => h z (by simp [hz])
    exact ⟨y :: ys, by rw [List.mapM_cons, hy, hys]; rfl⟩

theorem concatRes_ok {β γ : Type} (f : β → Res (List γ)) (xs : List β)
    (h : ∀ x ∈ xs, ∃ y, f x = .ok y) : ∃ ys, concatRes f xs = .ok ys := by
  induction xs with
  | nil => exact ⟨[], rfl⟩
  | cons x xs ih =>
    obtain ⟨y, hy⟩ := h x (by simp)
    obtain ⟨ys, hys⟩ := ih fun z hz => h z (by simp [hz])
    exact ⟨y ++ ys, by rw [concatRes, hy, hys]⟩

theorem shownGroup_ok (rel : Int) (left right : MergeSide)
    (h : ∀ i, i ∈ sideInsns left ∨ i ∈ sideInsns right → ∃ t, insnTexts i = .ok t) :
    ∃ rows, shownGroup rel left right = .ok rows := by
  refine mapM_all_ok _ _ fun k _ => ?_
  obtain ⟨a, ha⟩ := shownInsn_ok (o := (sideInsns left)[k]?)
    (fun i hi => h i (.inl (List.mem_of_getElem? hi)))
  obtain ⟨b, hb⟩ := shownInsn_ok (o := (sideInsns right)[k]?)
    (fun i hi => h i (.inr (List.mem_of_getElem? hi)))
  exact ⟨_, by rw [shownRow, ha, hb]; rfl⟩

theorem mergeLeft_nodup (gs : List LineGroup) {d : PyDict Int (MergeSide × MergeSide)}
    (h : d.keys.Nodup) : (mergeLeft d gs).keys.Nodup := by
  induction gs generalizing d with
  | nil => exact h
  | cons g gs ih => exact ih (PyDict.nodup_keys_set _ _ _ h)

theorem mergeRight_nodup (gs : List LineGroup) {d : PyDict Int (MergeSide × MergeSide)}
    (h : d.keys.Nodup) : (mergeRight d gs).keys.Nodup := by
  induction gs generalizing d with
  | nil => exact h
  | cons g gs ih =>
    unfold mergeRight
    split <;> exact ih (PyDict.nodup_keys_set _ _ _ h)

theorem mergeGroups_nodup (l r : List LineGroup) : (PyDict.keys (mergeGroups l r)).Nodup :=
  mergeRight_nodup r (mergeLeft_nodup l (by simp [PyDict.keys]))

/-- C154, from the codes of the two methods: when both can be split into lines, the page has the
table, with nine full columns, and no instruction fails to be shown. -/
theorem C154_page (l r : Option CodeInfo) {gl gr : List LineGroup} (hl : groupsOf l = .ok gl)
    (hr : groupsOf r = .ok gr) :
    ∃ order rows shown, order.Perm (mergeGroups gl gr) ∧
      order.Pairwise (fun a b => a.1 ≤ b.1) ∧
      changedCode l r = .ok rows ∧ readColumns 9 rows = some shown ∧
      concatRes (fun p => shownGroup p.1 p.2.1 p.2.2) order = .ok shown := by
  have hok : ∀ (c : Option CodeInfo) gs, groupsOf c = .ok gs → ∀ g ∈ gs, ∀ i ∈ g.insns,
      ∃ t, insnTexts i = .ok t := by
    intro c gs hc g hg i hi
    cases c with
    | none => simp [groupsOf] at hc; subst hc; simp at hg
    | some c => exact iterCodeByLines_insns hc hg hi
  obtain ⟨order, h1, h2, h3⟩ := C154_changed (mergeGroups gl gr)
  have hnd : (PyDict.keys (mergeGroups gl gr)).Nodup := mergeGroups_nodup gl gr
  obtain ⟨shown, hs⟩ := concatRes_ok (fun p : Int × MergeSide × MergeSide =>
      shownGroup p.1 p.2.1 p.2.2) order (by
    intro p hp
    have hg := PyDict.get?_of_mem_nodup hnd (k := p.1) (v := p.2) (h1.mem_iff.1 hp)
    obtain ⟨e1, e2⟩ := C33_only_groups gl gr p.1 p.2 hg
    refine shownGroup_ok _ _ _ fun i hi => ?_
    rcases hi with hi | hi
    · cases hs : p.2.1 with
      | none => rw [hs] at hi; simp [sideInsns] at hi
      | some s =>
        obtain ⟨g, hg, _, rfl⟩ := e1 s hs
        rw [hs] at hi
        exact hok l gl hl g hg i hi
    · cases hs : p.2.2 with
      | none => rw [hs] at hi; simp [sideInsns] at hi
      | some s =>
        obtain ⟨g, hg, _, rfl⟩ := e2 s hs
        rw [hs] at hi
        exact hok r gr hr g hg i hi)
  rw [hs] at h3
  have hm : mergeCode l r = .ok (mergeGroups gl gr) := by
    simp [mergeCode, hl, hr, bind, Except.bind]
  cases ht : codeTable (mergeGroups gl gr) with
  | error e => rw [ht] at h3; simp [Except.map] at h3
  | ok rows =>
    rw [ht] at h3
    simp only [Except.map, Except.ok.injEq] at h3
    exact ⟨order, rows, shown, h1, h2, by rw [changedCode, hm]; exact ht, h3, hs⟩

/-- C154: which table the page has: that of both codes if the change or the bytes differ, else that
of the original alone, and none without code. -/
theorem C154_which (isChange : Bool) (l r : Option CodeInfo) :
    ((isChange = true ∨ (l.map CodeInfo.code).getD [] ≠ (r.map CodeInfo.code).getD []) →
      codeDetails isChange l r = (changedCode l r).map fun t => (true, some t)) ∧
    (isChange = false → (l.map CodeInfo.code).getD [] = (r.map CodeInfo.code).getD [] →
      codeDetails isChange l r = (unchangedCode l).map fun t => (false, t)) := by
  refine ⟨fun h => ?_, fun h1 h2 => ?_⟩
  · unfold codeDetails
    rw [if_pos (by simpa using h)]
    cases changedCode l r <;> rfl
  · unfold codeDetails
    rw [if_neg (by simp [h1, h2])]
    cases unchangedCode l <;> rfl

/-- Three instructions against one at the first line, none against one at the second. -/
example : (codeTable [(0, some (7, [⟨0, 0x03, .ints []⟩, ⟨1, 0xb2, .ints [5]⟩, ⟨4, 0x57, .ints []⟩]),
      some (9, [⟨0, 0x03, .ints []⟩])), (1, none, some (10, [⟨1, 0xb1, .ints []⟩]))]).map
        (readColumns 9) = .ok (some (List.map (List.map String.toList) [
    ["0", "7", "0", "iconst_0", "", "9", "0", "iconst_0", ""],
    ["0", "7", "1", "getstatic", "#5", "9", "", "", ""],
    ["0", "7", "4", "pop", "", "9", "", "", ""],
    ["1", "", "", "", "", "10", "1", "return", ""]])) := by decide +kernel

end Javatools
