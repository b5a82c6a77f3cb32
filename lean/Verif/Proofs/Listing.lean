import Verif.Model.ClassInfoCli
import Verif.Props.Descriptor
/-
Lemmas about printed text: numbers, lines, quoted strings.
-/
namespace Javatools

/-! ### Output -/

@[simp] theorem andThen_none (a : List Char) (o : Out) : andThen (a, none) o = (a ++ o.1, o.2) := rfl

@[simp] theorem andThen_some (a : List Char) (e : PyErr) (o : Out) :
    andThen (a, some e) o = (a, some e) := rfl

@[simp] theorem andThen_nil (o : Out) : andThen o (([] : List Char), none) = o := by
  obtain ⟨a, e⟩ := o
  cases e <;> simp

theorem andThen_assoc (a b c : Out) : andThen (andThen a b) c = andThen a (andThen b c) := by
  obtain ⟨a, ea⟩ := a
  obtain ⟨b, eb⟩ := b
  cases ea <;> cases eb <;> simp

@[simp] theorem withRes_ok {α : Type} (a : α) (k : α → Out) : withRes (.ok a) k = k a := rfl

@[simp] theorem withRes_error {α : Type} (e : PyErr) (k : α → Out) :
    withRes (.error e) k = ([], some e) := rfl

@[simp] theorem seqOut_nil : seqOut [] = (([] : List Char), none) := rfl

@[simp] theorem seqOut_cons (o : Out) (os : List Out) : seqOut (o :: os) = andThen o (seqOut os) := rfl

theorem seqOut_append (xs ys : List Out) : seqOut (xs ++ ys) = andThen (seqOut xs) (seqOut ys) := by
  induction xs with
  | nil => simp [andThen]
  | cons x xs ih => simp [ih, andThen_assoc]

@[simp] theorem onlyIf_true (o : Out) : onlyIf true o = o := rfl

@[simp] theorem onlyIf_false (o : Out) : onlyIf false o = (([] : List Char), none) := rfl

@[simp] theorem say_eq (s : Str) : say s = (s, none) := rfl

@[simp] theorem sayLine_eq (s : Str) : sayLine s = (s ++ ['\n'], none) := rfl

/-- Lines, each ended by a newline. -/
def unlines (ls : List Str) : Str := ls.flatMap fun l => l ++ ['\n']

@[simp] theorem unlines_nil : unlines [] = [] := rfl

@[simp] theorem unlines_cons (l : Str) (ls : List Str) : unlines (l :: ls) = l ++ '\n' :: unlines ls := by
  simp [unlines]

theorem unlines_append (a b : List Str) : unlines (a ++ b) = unlines a ++ unlines b := by
  simp [unlines]

/-- A text that is made of lines determines the lines. -/
theorem unlines_injective {a b : List Str} (ha : ∀ l ∈ a, '\n' ∉ l) (hb : ∀ l ∈ b, '\n' ∉ l)
    (h : unlines a = unlines b) : a = b := by
  induction a generalizing b with
  | nil =>
    cases b with
    | nil => rfl
    | cons y b => rw [unlines_cons] at h; simp at h
  | cons x a ih =>
    cases b with
    | nil => rw [unlines_cons] at h; simp at h
    | cons y b =>
      rw [unlines_cons, unlines_cons] at h
      obtain ⟨h1, h2⟩ := split_first (ha x (by simp)) (hb y (by simp)) h
      rw [h1, ih (fun l hl => ha l (by simp [hl])) (fun l hl => hb l (by simp [hl])) h2]

/-! ### Numbers -/

theorem natText_eq (n : Nat) : natText n = Nat.toDigits 10 n := by
  unfold natText
  exact Nat.toList_repr

theorem natText_digit {n : Nat} {c : Char} (h : c ∈ natText n) : c.isDigit = true := by
  rw [natText_eq] at h
  exact Nat.isDigit_of_mem_toDigits (by decide) (by decide) h

theorem natText_ne_nil (n : Nat) : natText n ≠ [] := by
  rw [natText_eq]; exact Nat.toDigits_ne_nil

theorem natText_inj {a b : Nat} (h : natText a = natText b) : a = b := by
  rw [natText_eq, natText_eq] at h
  have := congrArg (fun s => Nat.ofDigitChars 10 s 0) h
  simpa [Nat.ofDigitChars_ten_toDigits] using this

theorem natText_not_mem (n : Nat) {c : Char} (h : c.isDigit = false) : c ∉ natText n := by
  intro hc
  rw [natText_digit hc] at h
  exact absurd h (by decide)

theorem intText_char {v : Int} {c : Char} (h : c ∈ intText v) : c.isDigit = true ∨ c = '-' := by
  cases v with
  | ofNat n => exact Or.inl (natText_digit h)
  | negSucc n =>
    rcases List.mem_cons.1 h with h | h
    · exact Or.inr h
    · exact Or.inl (natText_digit h)

theorem intText_not_mem (v : Int) {c : Char} (h : c.isDigit = false) (h2 : c ≠ '-') :
    c ∉ intText v := by
  intro hc
  rcases intText_char hc with h' | h'
  · rw [h'] at h; exact absurd h (by decide)
  · exact h2 h'

theorem intText_ne_nil (v : Int) : intText v ≠ [] := by
  cases v with
  | ofNat n => exact natText_ne_nil n
  | negSucc n => exact List.cons_ne_nil _ _

theorem intText_inj {a b : Int} (h : intText a = intText b) : a = b := by
  have key : ∀ (n k : Nat), natText n ≠ '-' :: natText k := by
    intro n k e
    have : '-' ∈ natText n := by rw [e]; simp
    exact natText_not_mem n (by decide) this
  cases a with
  | ofNat n =>
    cases b with
    | ofNat k => rw [natText_inj h]
    | negSucc k => exact absurd h (key _ _)
  | negSucc n =>
    cases b with
    | ofNat k => exact absurd h.symm (key _ _)
    | negSucc k =>
      have h2 := natText_inj (List.cons.inj h).2
      have : n = k := by omega
      rw [this]

theorem joinWith_sep_injective (c : Char) (sep : Str) (xs ys : List Str)
    (hx : ∀ s ∈ xs, c ∉ s ∧ s ≠ []) (hy : ∀ s ∈ ys, c ∉ s ∧ s ≠ [])
    (h : joinWith (c :: sep) xs = joinWith (c :: sep) ys) : xs = ys := by
  induction xs generalizing ys with
  | nil =>
    cases ys with
    | nil => rfl
    | cons y ys =>
      rw [joinWith_cons] at h
      exact absurd (List.append_eq_nil_iff.1 h.symm).1 (hy y (by simp)).2
  | cons x xs ih =>
    cases ys with
    | nil =>
      rw [joinWith_cons] at h
      exact absurd (List.append_eq_nil_iff.1 h).1 (hx x (by simp)).2
    | cons y ys =>
      rw [joinWith_cons, joinWith_cons] at h
      have hx1 := (hx x (by simp)).1
      have hy1 := (hy y (by simp)).1
      by_cases h1 : xs = []
      · by_cases h2 : ys = []
        · simp [h1, h2] at h; simp [h, h1, h2]
        · simp only [h1, h2, if_true, if_false, List.append_nil, List.cons_append] at h
          exact absurd (by rw [h]; simp) hx1
      · by_cases h2 : ys = []
        · simp only [h1, h2, if_true, if_false, List.append_nil, List.cons_append] at h
          exact absurd (by rw [← h]; simp) hy1
        · simp only [h1, h2, if_false, List.cons_append] at h
          obtain ⟨h3, h4⟩ := split_first hx1 hy1 h
          rw [h3, ih ys (fun s hs => hx s (by simp [hs])) (fun s hs => hy s (by simp [hs]))
            (List.append_cancel_left h4)]

theorem mem_joinWith {c : Char} {sep : Str} {xs : List Str} (h : c ∈ joinWith sep xs) :
    c ∈ sep ∨ ∃ x ∈ xs, c ∈ x := by
  induction xs with
  | nil => simp [joinWith] at h
  | cons x xs ih =>
    rw [joinWith_cons] at h
    rcases List.mem_append.1 h with h | h
    · exact Or.inr ⟨x, by simp, h⟩
    · split at h
      · simp at h
      · rcases List.mem_append.1 h with h | h
        · exact Or.inl h
        · rcases ih h with h | ⟨y, hy, hc⟩
          · exact Or.inl h
          · exact Or.inr ⟨y, by simp [hy], hc⟩

/-- A list in brackets of texts that can be read one after the other. -/
theorem bracketed_injective {α : Type} (f : α → Str) (xs ys : List α) (r s : Str)
    (hf : ∀ x y r s, f x ++ r = f y ++ s → x = y ∧ r = s) (hb : ∀ x, (f x).head? = some '(')
    (h : joinWith ", ".toList (xs.map f) ++ ']' :: r = joinWith ", ".toList (ys.map f) ++ ']' :: s) :
    xs = ys ∧ r = s := by
  have hne : ∀ x t, f x ++ t ≠ ']' :: s := by
    intro x t e
    have := hb x
    cases hfx : f x with
    | nil => simp [hfx] at this
    | cons c t' => rw [hfx] at e this; simp at e this; rw [e.1] at this; exact absurd this (by decide)
  have hne' : ∀ x t, ']' :: r ≠ f x ++ t := by
    intro x t e
    have := hb x
    cases hfx : f x with
    | nil => simp [hfx] at this
    | cons c t' => rw [hfx] at e this; simp at e this; rw [← e.1] at this; exact absurd this (by decide)
  induction xs generalizing ys with
  | nil =>
    cases ys with
    | nil => simp [joinWith] at h; exact ⟨rfl, h⟩
    | cons y ys =>
      simp only [List.map_cons, List.map_nil, joinWith_cons, List.append_assoc] at h
      exact absurd h (hne' _ _)
  | cons x xs ih =>
    cases ys with
    | nil =>
      simp only [List.map_cons, List.map_nil, joinWith_cons, List.append_assoc] at h
      exact absurd h (hne _ _)
    | cons y ys =>
      simp only [List.map_cons, joinWith_cons, List.append_assoc] at h
      obtain ⟨h1, h2⟩ := hf _ _ _ _ h
      by_cases e1 : xs = []
      · by_cases e2 : ys = []
        · simp [e1, e2] at h2; exact ⟨by rw [h1, e1, e2], h2⟩
        · simp [e1, e2] at h2
      · by_cases e2 : ys = []
        · simp [e1, e2] at h2
        · simp only [List.map_eq_nil_iff, e1, e2, if_false, List.append_assoc,
            List.append_cancel_left_eq] at h2
          obtain ⟨h3, h4⟩ := ih ys h2
          exact ⟨by rw [h1, h3], h4⟩

end Javatools
