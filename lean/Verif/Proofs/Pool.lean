import Verif.Model.ClassFile
import Verif.Proofs.Pack
/-
Lemmas about the shape of any pool the reader accepts, and about dereferencing.
-/
namespace Javatools

/-- Every value a program can return satisfies `P`. -/
def Prog.Post {α : Type} (P : α → Prop) : Prog α → Prop
  | .ret a => P a
  | .fail _ => True
  | .read _ _ k => ∀ bs, (k bs).Post P

theorem Prog.Post.bind {α β : Type} {P : α → Prop} {Q : β → Prop} {p : Prog α} {f : α → Prog β}
    (h : p.Post P) (hf : ∀ a, P a → (f a).Post Q) : (p.bind f).Post Q := by
  induction p with
  | ret a => exact hf a h
  | fail e => trivial
  | read fmt n k ih => intro bs; exact ih bs (h bs)

theorem Prog.Post.trivial {α : Type} (p : Prog α) : p.Post (fun _ => True) := by
  induction p with
  | ret a => exact True.intro
  | fail e => exact True.intro
  | read fmt n k ih => intro bs; exact ih bs

theorem Prog.Post.run {α : Type} {P : α → Prop} {p : Prog α} (h : p.Post P) (s : BufSt) (a : α)
    (hr : (p.runBuf s).1 = .ok a) : P a := by
  induction p generalizing s with
  | ret b => simp only [Prog.runBuf, Except.ok.injEq] at hr; subst hr; exact h
  | fail e => simp [Prog.runBuf] at hr
  | read fmt n k ih =>
    simp only [Prog.runBuf] at hr
    split at hr
    · exact ih _ (h _) _ hr
    · simp at hr

/-- Shape of the slots read by the loop: an empty slot exactly when the previous entry was a
long or double. -/
inductive SlotsOK : Bool → Pool → Prop where
  | nil (b) : SlotsOK b []
  | skip {r} : SlotsOK false r → SlotsOK true (none :: r)
  | item {c r} : SlotsOK c.isWide r → SlotsOK false (some c :: r)

theorem poolLoop_post (n : Nat) (b : Bool) :
    (poolLoop n b).Post (fun r => r.length = n ∧ SlotsOK b r) := by
  induction n generalizing b with
  | zero => exact ⟨rfl, .nil b⟩
  | succ n ih =>
    cases b with
    | true =>
      refine Prog.Post.bind (ih false) ?_
      intro r hr
      exact ⟨by simp [hr.1], .skip hr.2⟩
    | false =>
      refine Prog.Post.bind (Prog.Post.trivial unpackConstItem) ?_
      intro c _
      refine Prog.Post.bind (ih c.isWide) ?_
      intro r hr
      exact ⟨by simp [hr.1], .item hr.2⟩

/-- What `SlotsOK` means index by index. -/
theorem SlotsOK.index {b : Bool} {r : Pool} (h : SlotsOK b r) (i : Nat) (hi : i < r.length) :
    (r[i]? = some none ↔ (i = 0 ∧ b = true) ∨
      (∃ j c, i = j + 1 ∧ r[j]? = some (some c) ∧ c.isWide = true)) := by
  induction h generalizing i with
  | nil b => simp at hi
  | @skip r hr ih =>
    cases i with
    | zero => simp
    | succ i =>
      simp only [List.length_cons] at hi
      have := ih i (by omega)
      simp only [List.getElem?_cons_succ, this]
      constructor
      · rintro (⟨h1, h2⟩ | ⟨j, c, h1, h2, h3⟩)
        · simp at h2
        · exact Or.inr ⟨j + 1, c, by omega, by simpa using h2, h3⟩
      · rintro (⟨h1, _⟩ | ⟨j, c, h1, h2, h3⟩)
        · omega
        · cases j with
          | zero => simp at h2
          | succ j => exact Or.inr ⟨j, c, by omega, by simpa using h2, h3⟩
  | @item c r hr ih =>
    cases i with
    | zero => simp
    | succ i =>
      simp only [List.length_cons] at hi
      have := ih i (by omega)
      simp only [List.getElem?_cons_succ, this]
      constructor
      · rintro (⟨h1, h2⟩ | ⟨j, c', h1, h2, h3⟩)
        · exact Or.inr ⟨0, c, by omega, rfl, h2⟩
        · exact Or.inr ⟨j + 1, c', by omega, by simpa using h2, h3⟩
      · rintro (⟨h1, _⟩ | ⟨j, c', h1, h2, h3⟩)
        · omega
        · cases j with
          | zero =>
            simp only [List.getElem?_cons_zero, Option.some.injEq] at h2
            subst h2
            exact Or.inl ⟨by omega, h3⟩
          | succ j => exact Or.inr ⟨j, c', by omega, by simpa using h2, h3⟩

theorem u2_run_read {α : Type} (f : Nat → Prog α) (d : Bytes) (a : α)
    (h : ((u2.bind f).runBuf ⟨some d, 0⟩).1 = .ok a) :
    2 ≤ d.length ∧ ((f (beNat (d.take 2))).runBuf ⟨some d, 2⟩).1 = .ok a := by
  simp only [u2, Prog.bind_read, Prog.bind_ret, Prog.runBuf] at h
  by_cases hl : 0 + 2 ≤ d.length
  · rw [BufSt.read_ok _ hl] at h
    exact ⟨by omega, by simpa using h⟩
  · rw [BufSt.read_short _ (by omega) (by omega)] at h
    simp at h

/-- `n & 2**k` is nonzero exactly when bit `k` of `n` is set. -/
theorem and_pow_ne_zero (n k : Nat) : (n &&& 2 ^ k) ≠ 0 ↔ n.testBit k = true := by
  have h : ∀ j, (n &&& 2 ^ k).testBit j = (n.testBit j && decide (k = j)) := by
    intro j; rw [Nat.testBit_and, Nat.testBit_two_pow]
  constructor
  · intro h0
    cases hb : n.testBit k with
    | true => rfl
    | false =>
      exfalso; apply h0
      apply Nat.eq_of_testBit_eq
      intro j
      rw [h j, Nat.zero_testBit]
      by_cases e : k = j
      · subst e; simp [hb]
      · simp [e]
  · intro hb h0
    have := h k
    rw [h0, Nat.zero_testBit] at this
    simp [hb] at this

/-! ### Dereferencing -/

/-- The indices `deref_const` follows from an entry. -/
def Const.follows : Const → List Nat
  | .utf8 _ | .integer _ | .float _ | .long _ | .double _ => []
  | .cls n | .string n | .methodType n | .module n | .package n => [n]
  | .fieldref a b | .methodref a b | .ifaceMethodref a b | .nameAndType a b | .moduleId a b => [a, b]
  | .invokeDynamic _ b | .dynamic _ b | .methodHandle _ b => [b]

/-- `j` is referred to by the entry at `i`. -/
def Refs (pool : Pool) (i j : Nat) : Prop := ∃ c, pool[i]? = some (some c) ∧ j ∈ c.follows

/-- If dereferencing `i` gives a value then so does dereferencing everything it refers to, with
one call less. -/
theorem deref_ok_refs {pool : Pool} {lim i j : Nat} {v : PVal} (h : deref pool lim i = .ok v)
    (hr : Refs pool i j) : ∃ lim' w, lim = lim' + 1 ∧ deref pool lim' j = .ok w := by
  cases lim with
  | zero => simp [deref] at h
  | succ lim =>
    obtain ⟨c, hc, hj⟩ := hr
    refine ⟨lim, ?_⟩
    simp only [deref] at h
    split at h
    · simp at h
    · rw [hc] at h
      have pair : ∀ a b, (do let x ← deref pool lim a; let y ← deref pool lim b
                             .ok (PVal.pair x y) : Res PVal) = .ok v → (j = a ∨ j = b) →
          ∃ w, lim + 1 = lim + 1 ∧ deref pool lim j = .ok w := by
        intro a b hab hj
        cases ha : deref pool lim a with
        | error e => simp [ha, bind, Except.bind] at hab
        | ok x =>
          cases hb : deref pool lim b with
          | error e => simp [ha, hb, bind, Except.bind] at hab
          | ok y => rcases hj with rfl | rfl
                    · exact ⟨x, rfl, ha⟩
                    · exact ⟨y, rfl, hb⟩
      have one : ∀ a b, (do let y ← deref pool lim b
                            .ok (PVal.pair (.int a) y) : Res PVal) = .ok v → j = b →
          ∃ w, lim + 1 = lim + 1 ∧ deref pool lim j = .ok w := by
        intro a b hab hj
        cases hb : deref pool lim b with
        | error e => simp [hb, bind, Except.bind] at hab
        | ok y => subst hj; exact ⟨y, rfl, hb⟩
      cases c <;> simp only [Const.follows, List.not_mem_nil, List.mem_cons, or_false] at hj <;>
        first
        | exact pair _ _ h hj
        | exact one _ _ h hj
        | (subst hj; exact ⟨v, rfl, h⟩)

/-- Reachability through references. -/
inductive Reaches (pool : Pool) : Nat → Nat → Prop where
  | step {i j} : Refs pool i j → Reaches pool i j
  | trans {i j k} : Refs pool i j → Reaches pool j k → Reaches pool i k

theorem deref_ok_reaches {pool : Pool} {i j : Nat} (hr : Reaches pool i j) :
    ∀ {lim : Nat} {v : PVal}, deref pool lim i = .ok v →
      ∃ lim' w, lim' < lim ∧ deref pool lim' j = .ok w := by
  induction hr with
  | step h =>
    intro lim v hd
    obtain ⟨l, w, h1, h2⟩ := deref_ok_refs hd h
    exact ⟨l, w, by omega, h2⟩
  | trans h _ ih =>
    intro lim v hd
    obtain ⟨l, w, h1, h2⟩ := deref_ok_refs hd h
    obtain ⟨l', w', h3, h4⟩ := ih h2
    exact ⟨l', w', by omega, h4⟩

theorem deref_cycle {pool : Pool} {i : Nat} (hr : Reaches pool i i) (lim : Nat) :
    ∀ v, deref pool lim i ≠ .ok v := by
  induction lim using Nat.strongRecOn with
  | _ lim ih =>
    intro v hv
    obtain ⟨l, w, h1, h2⟩ := deref_ok_reaches hr hv
    exact ih l h1 w h2

/-- A larger recursion limit never changes a value already obtained. -/
theorem deref_mono {pool : Pool} {lim i : Nat} {v : PVal} (h : deref pool lim i = .ok v) :
    deref pool (lim + 1) i = .ok v := by
  induction lim generalizing i v with
  | zero => simp [deref] at h
  | succ lim ih =>
    rw [deref] at h ⊢
    by_cases h0 : i = 0
    · simp [h0] at h
    · simp only [h0, if_false] at h ⊢
      cases hp : pool[i]? with
      | none => simp [hp] at h
      | some o =>
        cases o with
        | none => simp [hp] at h
        | some c =>
          simp only [hp] at h ⊢
          have pair : ∀ a b, (do let x ← deref pool lim a; let y ← deref pool lim b
                                 .ok (PVal.pair x y) : Res PVal) = .ok v →
              (do let x ← deref pool (lim+1) a; let y ← deref pool (lim+1) b
                  .ok (PVal.pair x y) : Res PVal) = .ok v := by
            intro a b hab
            cases ha : deref pool lim a with
            | error e => simp [ha, bind, Except.bind] at hab
            | ok x =>
              cases hb : deref pool lim b with
              | error e => simp [ha, hb, bind, Except.bind] at hab
              | ok y => rw [ih ha, ih hb]; rw [ha, hb] at hab; exact hab
          have one : ∀ a b, (do let y ← deref pool lim b
                                .ok (PVal.pair (.int a) y) : Res PVal) = .ok v →
              (do let y ← deref pool (lim+1) b
                  .ok (PVal.pair (.int a) y) : Res PVal) = .ok v := by
            intro a b hab
            cases hb : deref pool lim b with
            | error e => simp [hb, bind, Except.bind] at hab
            | ok y => rw [ih hb]; rw [hb] at hab; exact hab
          cases c <;> first | exact h | exact ih h | exact pair _ _ h | exact one _ _ h

theorem deref_mono_le {pool : Pool} {lim lim' i : Nat} {v : PVal} (hl : lim ≤ lim')
    (h : deref pool lim i = .ok v) : deref pool lim' i = .ok v := by
  induction hl with
  | refl => exact h
  | step _ ih => exact deref_mono ih

/-- The errors dereferencing can raise. -/
theorem deref_error {pool : Pool} {lim i : Nat} {e : PyErr} (h : deref pool lim i = .error e) :
    e = .indexError ∨ e = .unknownTag ∨ e = .recursionError := by
  induction lim generalizing i e with
  | zero => simp [deref] at h; exact Or.inr (Or.inr h.symm)
  | succ lim ih =>
    rw [deref] at h
    split at h
    · simp at h; exact Or.inl h.symm
    · split at h
      · simp at h; exact Or.inl h.symm
      · simp at h; exact Or.inr (Or.inl h.symm)
      · rename_i c hc
        have pair : ∀ a b, (do let x ← deref pool lim a; let y ← deref pool lim b
                               .ok (PVal.pair x y) : Res PVal) = .error e →
            deref pool lim a = .error e ∨ deref pool lim b = .error e := by
          intro a b hab
          cases ha : deref pool lim a with
          | error e' => simp [ha, bind, Except.bind] at hab; subst hab; exact Or.inl rfl
          | ok x =>
            cases hb : deref pool lim b with
            | error e' => simp [ha, hb, bind, Except.bind] at hab; subst hab; exact Or.inr rfl
            | ok y => simp [ha, hb, bind, Except.bind] at hab
        have one : ∀ a b, (do let y ← deref pool lim b
                              .ok (PVal.pair (.int a) y) : Res PVal) = .error e →
            deref pool lim b = .error e := by
          intro a b hab
          cases hb : deref pool lim b with
          | error e' => simp [hb, bind, Except.bind] at hab; subst hab; rfl
          | ok y => simp [hb, bind, Except.bind] at hab
        cases c <;> first
          | (simp at h; done)
          | exact ih h
          | (rcases pair _ _ h with h | h <;> exact ih h)
          | exact ih (one _ _ h)

end Javatools

namespace Javatools

theorem Reaches.tail_of {pool : Pool} {i j : Nat} (h : Refs pool i j) {P : Nat → Prop}
    (hP : ∀ k, (k = i ∨ Reaches pool i k) → P k) : ∀ k, (k = j ∨ Reaches pool j k) → P k := by
  intro k hk
  refine hP k (Or.inr ?_)
  rcases hk with rfl | hk
  · exact .step h
  · exact .trans h hk

/-- When everything reachable is a usable entry, the only possible error is RecursionError. -/
theorem deref_error_reachable {pool : Pool} {lim i : Nat} {e : PyErr}
    (hok : ∀ k, (k = i ∨ Reaches pool i k) → k ≠ 0 ∧ ∃ c, pool[k]? = some (some c))
    (h : deref pool lim i = .error e) : e = .recursionError := by
  induction lim generalizing i e with
  | zero => simp [deref] at h; exact h.symm
  | succ lim ih =>
    obtain ⟨h0, c, hc⟩ := hok i (Or.inl rfl)
    rw [deref] at h
    simp only [h0, if_false, hc] at h
    have sub : ∀ j e', j ∈ c.follows → deref pool lim j = .error e' → e' = .recursionError :=
      fun j e' hj hd => ih (Reaches.tail_of ⟨c, hc, hj⟩ hok) hd
    have pair : ∀ a b, (do let x ← deref pool lim a; let y ← deref pool lim b
                           .ok (PVal.pair x y) : Res PVal) = .error e →
        a ∈ c.follows → b ∈ c.follows → e = .recursionError := by
      intro a b hab ha' hb'
      cases ha : deref pool lim a with
      | error e' => simp [ha, bind, Except.bind] at hab; subst hab; exact sub a e' ha' ha
      | ok x =>
        cases hb : deref pool lim b with
        | error e' => simp [ha, hb, bind, Except.bind] at hab; subst hab; exact sub b e' hb' hb
        | ok y => simp [ha, hb, bind, Except.bind] at hab
    have one : ∀ a b, (do let y ← deref pool lim b
                          .ok (PVal.pair (.int a) y) : Res PVal) = .error e →
        b ∈ c.follows → e = .recursionError := by
      intro a b hab hb'
      cases hb : deref pool lim b with
      | error e' => simp [hb, bind, Except.bind] at hab; subst hab; exact sub b e' hb' hb
      | ok y => simp [hb, bind, Except.bind] at hab
    cases c <;> first
      | (simp at h; done)
      | exact sub _ _ (by simp [Const.follows]) h
      | exact pair _ _ h (by simp [Const.follows]) (by simp [Const.follows])
      | exact one _ _ h (by simp [Const.follows])

/-! ### Recursion exhaustion means a cycle -/

/-- A chain of references. -/
inductive Chain (pool : Pool) : List Nat → Prop where
  | one (i) : Chain pool [i]
  | cons {i j l} : Refs pool i j → Chain pool (j :: l) → Chain pool (i :: j :: l)

theorem deref_recursion_chain {pool : Pool} {lim i : Nat}
    (h : deref pool lim i = .error .recursionError) :
    ∃ l, Chain pool (i :: l) ∧ l.length = lim := by
  induction lim generalizing i with
  | zero => exact ⟨[], .one i, rfl⟩
  | succ lim ih =>
    rw [deref] at h
    split at h
    · simp at h
    · split at h
      · simp at h
      · simp at h
      · rename_i c hc
        have ext : ∀ j, j ∈ c.follows → deref pool lim j = .error .recursionError →
            ∃ l, Chain pool (i :: l) ∧ l.length = lim + 1 := by
          intro j hj hd
          obtain ⟨l, h1, h2⟩ := ih hd
          exact ⟨j :: l, .cons ⟨c, hc, hj⟩ h1, by simp [h2]⟩
        have pair : ∀ a b, (do let x ← deref pool lim a; let y ← deref pool lim b
                               .ok (PVal.pair x y) : Res PVal) = .error .recursionError →
            a ∈ c.follows → b ∈ c.follows → ∃ l, Chain pool (i :: l) ∧ l.length = lim + 1 := by
          intro a b hab ha' hb'
          cases ha : deref pool lim a with
          | error e' => simp [ha, bind, Except.bind] at hab; subst hab; exact ext a ha' ha
          | ok x =>
            cases hb : deref pool lim b with
            | error e' => simp [ha, hb, bind, Except.bind] at hab; subst hab; exact ext b hb' hb
            | ok y => simp [ha, hb, bind, Except.bind] at hab
        have one : ∀ a b, (do let y ← deref pool lim b
                              .ok (PVal.pair (.int a) y) : Res PVal) = .error .recursionError →
            b ∈ c.follows → ∃ l, Chain pool (i :: l) ∧ l.length = lim + 1 := by
          intro a b hab hb'
          cases hb : deref pool lim b with
          | error e' => simp [hb, bind, Except.bind] at hab; subst hab; exact ext b hb' hb
          | ok y => simp [hb, bind, Except.bind] at hab
        cases c <;> first
          | (simp at h; done)
          | exact ext _ (by simp [Const.follows]) h
          | exact pair _ _ h (by simp [Const.follows]) (by simp [Const.follows])
          | exact one _ _ h (by simp [Const.follows])

theorem Chain.reaches {pool : Pool} {l : List Nat} (h : Chain pool l) :
    ∀ a i b j c, l = a ++ i :: (b ++ j :: c) → Reaches pool i j := by
  induction h with
  | one x =>
    intro a i b j c he
    have := congrArg List.length he
    simp at this
    omega
  | @cons x y l hr hc ih =>
    intro a i b j c he
    cases a with
    | nil =>
      simp only [List.nil_append, List.cons.injEq] at he
      obtain ⟨rfl, he⟩ := he
      cases b with
      | nil =>
        simp only [List.nil_append, List.cons.injEq] at he
        obtain ⟨rfl, _⟩ := he
        exact .step hr
      | cons z b =>
        simp only [List.cons_append, List.cons.injEq] at he
        obtain ⟨rfl, he⟩ := he
        exact .trans hr (ih [] y b j c (by simp [he]))
    | cons z a =>
      simp only [List.cons_append, List.cons.injEq] at he
      exact ih a i b j c he.2

theorem Chain.valid {pool : Pool} {l : List Nat} (h : Chain pool l) :
    ∀ i ∈ l.dropLast, i < pool.length := by
  induction h with
  | one x => simp
  | @cons x y l hr hc ih =>
    intro i hi
    simp only [List.dropLast_cons_cons, List.mem_cons] at hi
    rcases hi with rfl | hi
    · obtain ⟨c, hc, _⟩ := hr
      exact (List.getElem?_eq_some_iff.1 hc).1
    · exact ih i hi

/-- Pigeonhole: more than `n` numbers below `n` contain a repetition. -/
theorem exists_repeat (n : Nat) (l : List Nat) (h : ∀ i ∈ l, i < n) (hl : n < l.length) :
    ∃ a i b c, l = a ++ i :: (b ++ i :: c) := by
  induction n generalizing l with
  | zero =>
    cases l with
    | nil => simp at hl
    | cons x l => exact absurd (h x (by simp)) (by omega)
  | succ n ih =>
    by_cases hcount : ∃ a b c, l = a ++ n :: (b ++ n :: c)
    · obtain ⟨a, b, c, h1⟩ := hcount; exact ⟨a, n, b, c, h1⟩
    · by_cases hm : n ∈ l
      · obtain ⟨s, t, rfl⟩ := List.append_of_mem hm
        have hs : n ∉ s := by
          intro hn
          obtain ⟨s1, s2, rfl⟩ := List.append_of_mem hn
          exact hcount ⟨s1, s2, t, by simp⟩
        have ht : n ∉ t := by
          intro hn
          obtain ⟨t1, t2, rfl⟩ := List.append_of_mem hn
          exact hcount ⟨s, t1, t2, by simp⟩
        have := ih (s ++ t) (by
          intro i hi
          have h1 := h i (by simp at hi ⊢; rcases hi with h | h <;> simp [h])
          have h2 : i ≠ n := by
            intro e; subst e
            rcases List.mem_append.1 hi with h | h
            · exact hs h
            · exact ht h
          omega) (by simp at hl ⊢; omega)
        obtain ⟨a, i, b, c, he⟩ := this
        -- reinsert n: the repetition survives
        have key : ∀ (s t a : List Nat) (i : Nat) (b c : List Nat),
            s ++ t = a ++ i :: (b ++ i :: c) →
            ∃ a' b' c', s ++ n :: t = a' ++ i :: (b' ++ i :: c') := by
          intro s
          induction s with
          | nil => intro t a i b c he; exact ⟨n :: a, b, c, by simp at he ⊢; exact he⟩
          | cons x s ihs =>
            intro t a i b c he
            cases a with
            | nil =>
              simp only [List.cons_append, List.nil_append, List.cons.injEq] at he
              obtain ⟨rfl, he⟩ := he
              have hmem : x ∈ s ++ n :: t := by
                have : x ∈ s ++ t := by rw [he]; simp
                rcases List.mem_append.1 this with h | h
                · simp [h]
                · simp [h]
              obtain ⟨p, q, hpq⟩ := List.append_of_mem hmem
              exact ⟨[], p, q, by simp [hpq]⟩
            | cons y a =>
              simp only [List.cons_append, List.cons.injEq] at he
              obtain ⟨rfl, he⟩ := he
              obtain ⟨a', b', c', h'⟩ := ihs t a i b c he
              exact ⟨x :: a', b', c', by simp [h']⟩
        obtain ⟨a', b', c', h'⟩ := key s t a i b c he
        exact ⟨a', i, b', c', h'⟩
      · exact ih l (by
          intro i hi
          have := h i hi
          have : i ≠ n := by intro e; subst e; exact hm hi
          omega) (by omega)

/-- If the recursion limit is at least one more than the pool size, running into it means
that a reference cycle is reachable. -/
theorem deref_recursion_cycle {pool : Pool} {lim i : Nat} (hl : pool.length < lim)
    (h : deref pool lim i = .error .recursionError) :
    ∃ j, (j = i ∨ Reaches pool i j) ∧ Reaches pool j j := by
  obtain ⟨l, hc, hlen⟩ := deref_recursion_chain h
  have hv := hc.valid
  have hdl : pool.length < ((i :: l).dropLast).length := by simp; omega
  obtain ⟨a, j, b, c, he⟩ := exists_repeat pool.length _ hv hdl
  have hsplit : i :: l = a ++ j :: (b ++ j :: (c ++ [(i :: l).getLast (by simp)])) := by
    conv => lhs; rw [← List.dropLast_concat_getLast (l := i :: l) (by simp)]
    rw [he]; simp
  refine ⟨j, ?_, hc.reaches a j b j _ hsplit⟩
  cases a with
  | nil =>
    simp only [List.nil_append, List.cons.injEq] at hsplit
    exact Or.inl hsplit.1.symm
  | cons x a =>
    simp only [List.cons_append, List.cons.injEq] at hsplit
    obtain ⟨rfl, hs⟩ := hsplit
    right
    exact hc.reaches [] i a j _ (by rw [List.nil_append, hs])

end Javatools
