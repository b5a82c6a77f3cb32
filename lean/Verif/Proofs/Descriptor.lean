import Verif.Model.Descriptor
import Verif.Spec.Descriptor
/-
Lemmas about descriptor splitting and pretty printing.
-/
namespace Javatools
open Spec

theorem findEnd_append (c : Char) (s post : Str) (h : c ∉ s) :
    findEnd c (s ++ c :: post) = s.length + 1 := by
  have : (s ++ c :: post).findIdx? (· == c) = some s.length := by
    induction s with
    | nil => simp [List.findIdx?_cons]
    | cons x s ih =>
      simp only [List.mem_cons, not_or] at h
      have hx : (x == c) = false := by simp; exact fun e => h.1 e.symm
      rw [List.cons_append, List.findIdx?_cons, hx, ih h.2]
      simp
  unfold findEnd
  rw [this]

theorem findEnd_le (c : Char) (s : Str) : findEnd c s ≤ s.length := by
  unfold findEnd
  cases h : s.findIdx? (· == c) with
  | none => simp
  | some i =>
    have := List.findIdx?_eq_some_iff_findIdx_eq.1 h
    simp only; omega

theorem findEnd_split (c : Char) (s : Str) :
    findEnd c s = 0 ∨ ∃ a b, s = a ++ c :: b ∧ findEnd c s = a.length + 1 := by
  by_cases h : c ∈ s
  · right
    have : ∃ a b, s = a ++ c :: b ∧ c ∉ a := by
      induction s with
      | nil => simp at h
      | cons x s ih =>
        by_cases e : x = c
        · exact ⟨[], s, by simp [e], by simp⟩
        · obtain ⟨a, b, h1, h2⟩ := ih (by
            rcases List.mem_cons.1 h with h | h
            · exact absurd h.symm e
            · exact h)
          exact ⟨x :: a, b, by simp [h1], by
            simp only [List.mem_cons, not_or]; exact ⟨fun e' => e e'.symm, h2⟩⟩
    obtain ⟨a, b, h1, h2⟩ := this
    exact ⟨a, b, h1, by rw [h1, findEnd_append c a b h2]⟩
  · left
    unfold findEnd
    have : s.findIdx? (· == c) = none := by
      rw [List.findIdx?_eq_none_iff]
      intro x hx
      simp only [beq_eq_false_iff_ne, ne_eq]
      rintro rfl
      exact h hx
    rw [this]

theorem prim_desc_mem (p : Prim) :
    p.desc ∈ ['B', 'C', 'D', 'F', 'I', 'J', 'S', 'V', 'Z'] := by cases p <;> decide

theorem nextArgsig_desc (t : JType) (h : t.Names NoSemi) (post : Str) :
    nextArgsig (t.desc ++ post) = .ok (t.desc, post) := by
  induction t with
  | prim p =>
    simp only [JType.desc, List.cons_append, List.nil_append, nextArgsig, if_pos (prim_desc_mem p)]
  | cls n =>
    have hn : ';' ∉ 'L' :: n := by
      simp only [List.mem_cons, not_or]; exact ⟨by decide, h⟩
    have e : ('L' :: n ++ [';']) ++ post = ('L' :: n) ++ ';' :: post := by simp
    have hf := findEnd_append ';' ('L' :: n) post hn
    simp only [JType.desc]
    rw [show 'L' :: (n ++ [';']) ++ post = 'L' :: (n ++ ';' :: post) by simp]
    simp only [nextArgsig]
    rw [if_neg (by decide), if_neg (by decide), if_pos trivial]
    rw [show 'L' :: (n ++ ';' :: post) = ('L' :: n) ++ ';' :: post by simp, hf]
    have e2 : ('L' :: n) ++ ';' :: post = ('L' :: (n ++ [';'])) ++ post := by simp
    rw [e2]
    have hl : ('L' :: n).length + 1 = ('L' :: (n ++ [';'])).length := by simp
    rw [hl, List.take_left, List.drop_left]
  | arr t ih =>
    simp only [JType.desc, List.cons_append, nextArgsig]
    rw [if_neg (by decide), if_pos trivial, ih h]
    rfl

theorem nextArgsig_void (post : Str) : nextArgsig ('V' :: post) = .ok (['V'], post) := by
  simp [nextArgsig]

theorem desc_ne_nil (t : JType) : t.desc ≠ [] := by cases t <;> simp [JType.desc]

theorem nextArgsig_ret (r : Option JType) (h : ∀ t, r = some t → t.Names NoSemi) (post : Str) :
    nextArgsig (retDesc r ++ post) = .ok (retDesc r, post) := by
  cases r with
  | none => exact nextArgsig_void post
  | some t => exact nextArgsig_desc t (h t rfl) post

/-- The three ways `_next_argsig` can return. -/
theorem nextArgsig_ok {s t s' : Str} (h : nextArgsig s = .ok (t, s')) :
    (t ≠ [] ∧ s = t ++ s') ∨ (t = [] ∧ s' = s ∧ s ≠ []) ∨
    (∃ k rest, s = List.replicate k '[' ++ '.' :: rest ∧ t = List.replicate k '[' ++ rest ∧
      s' = []) := by
  induction s generalizing t s' with
  | nil => simp [nextArgsig] at h
  | cons c rest ih =>
    simp only [nextArgsig] at h
    split at h
    · simp only [Except.ok.injEq, Prod.mk.injEq] at h
      left; rw [← h.1, ← h.2]; simp
    · split at h
      · rename_i hc
        cases hr : nextArgsig rest with
        | error e => simp [hr, bind, Except.bind] at h
        | ok r =>
          simp only [hr, bind, Except.bind, Except.ok.injEq, Prod.mk.injEq] at h
          obtain ⟨rfl, rfl⟩ := h
          rcases ih hr with ⟨h1, h2⟩ | ⟨h1, h2, h3⟩ | ⟨k, x, h1, h2, h3⟩
          · left; exact ⟨by simp, by simp [← h2]⟩
          · left; exact ⟨by simp, by rw [h1, h2]; rfl⟩
          · right; right
            exact ⟨k + 1, x, by simp [List.replicate_succ, h1, hc],
              by simp [List.replicate_succ, h2, hc], h3⟩
      · have fe : ∀ ch, .ok ((c :: rest).take (findEnd ch (c :: rest)),
              (c :: rest).drop (findEnd ch (c :: rest))) = (.ok (t, s') : Res (Str × Str)) →
            (t ≠ [] ∧ c :: rest = t ++ s') ∨ (t = [] ∧ s' = c :: rest ∧ c :: rest ≠ []) := by
          intro ch hh
          simp only [Except.ok.injEq, Prod.mk.injEq] at hh
          obtain ⟨rfl, rfl⟩ := hh
          by_cases h0 : findEnd ch (c :: rest) = 0
          · right; simp [h0]
          · left
            refine ⟨?_, by rw [List.take_append_drop]⟩
            rw [ne_eq, List.take_eq_nil_iff]
            simp [h0]
        split at h
        · rcases fe ';' h with h | h
          · exact Or.inl h
          · exact Or.inr (Or.inl h)
        · split at h
          · rcases fe ')' h with h | h
            · exact Or.inl h
            · exact Or.inr (Or.inl h)
          · split at h
            · rename_i hc
              simp only [Except.ok.injEq, Prod.mk.injEq] at h
              exact Or.inr (Or.inr ⟨0, rest, by simp [hc], by simp [h.1], h.2.symm⟩)
            · simp at h

theorem nextArgsig_error {s : Str} {e : PyErr} (h : nextArgsig s = .error e) :
    e = .unimplemented ∨ (e = .indexError ∧ ∃ k, s = List.replicate k '[') := by
  induction s generalizing e with
  | nil => simp [nextArgsig] at h; exact Or.inr ⟨h.symm, 0, rfl⟩
  | cons c rest ih =>
    simp only [nextArgsig] at h
    split at h
    · simp at h
    · split at h
      · rename_i hc
        cases hr : nextArgsig rest with
        | ok r => simp [hr, bind, Except.bind] at h
        | error e' =>
          simp only [hr, bind, Except.bind, Except.error.injEq] at h
          subst h
          rcases ih hr with h | ⟨h, k, hk⟩
          · exact Or.inl h
          · exact Or.inr ⟨h, k + 1, by rw [hk, hc]; rfl⟩
      · repeat' split at h
        all_goals simp at h
        exact Or.inl h.symm

/-- What a successful split looks like. -/
theorem typeseqLoop_ok {fuel : Nat} {s : Str} {ts : List Str} (h : typeseqLoop fuel s = .ok ts) :
    (s = ts.flatten ∧ ∀ t ∈ ts, t ≠ []) ∨
    (∃ init k rest, ts = init ++ [List.replicate k '[' ++ rest] ∧
      s = init.flatten ++ (List.replicate k '[' ++ '.' :: rest) ∧ ∀ t ∈ init, t ≠ []) := by
  induction fuel generalizing s ts with
  | zero =>
    cases s with
    | nil => simp [typeseqLoop] at h; subst h; left; simp
    | cons c s => simp [typeseqLoop] at h
  | succ fuel ih =>
    cases s with
    | nil => simp [typeseqLoop] at h; subst h; left; simp
    | cons c s =>
      simp only [typeseqLoop] at h
      cases hn : nextArgsig (c :: s) with
      | error e => simp [hn, bind, Except.bind] at h
      | ok r =>
        obtain ⟨t, s'⟩ := r
        simp only [hn, bind, Except.bind] at h
        split at h
        · simp at h
        · rename_i hne
          cases hl : typeseqLoop fuel s' with
          | error e => simp [hl] at h
          | ok ts' =>
            simp only [hl, Except.ok.injEq] at h
            subst h
            rcases nextArgsig_ok hn with ⟨h1, h2⟩ | ⟨h1, h2, h3⟩ | ⟨k, rest, h1, h2, h3⟩
            · rcases ih hl with ⟨h4, h5⟩ | ⟨init, k, rest, h4, h5, h6⟩
              · left
                refine ⟨by simp [h2, h4], ?_⟩
                intro x hx
                rcases List.mem_cons.1 hx with rfl | hx
                · exact h1
                · exact h5 x hx
              · right
                refine ⟨t :: init, k, rest, by simp [h4], by simp [h2, h5], ?_⟩
                intro x hx
                rcases List.mem_cons.1 hx with rfl | hx
                · exact h1
                · exact h6 x hx
            · exact absurd ⟨h2.symm, h1⟩ hne
            · subst h3
              have : ts' = [] := by
                cases fuel <;> simp [typeseqLoop] at hl <;> exact hl
              subst this
              right
              exact ⟨[], k, rest, by simp [h2], by simp [h1], by simp⟩

/-- The loop needs at most one iteration per character. -/
theorem typeseqLoop_fuel (s : Str) (fuel : Nat) (h : s.length ≤ fuel) :
    typeseqLoop fuel s = typeseq s ∧ typeseqLoop fuel s ≠ .error (.other "diverges") := by
  have key : ∀ n (s : Str), s.length ≤ n → ∀ f g, s.length ≤ f → s.length ≤ g →
      typeseqLoop f s = typeseqLoop g s ∧ typeseqLoop f s ≠ .error (.other "diverges") := by
    intro n
    induction n with
    | zero =>
      intro s hs f g _ _
      have : s = [] := by cases s <;> simp_all
      subst this
      constructor
      · cases f <;> cases g <;> rfl
      · cases f <;> simp [typeseqLoop]
    | succ n ih =>
      intro s hs f g hf hg
      cases s with
      | nil =>
        constructor
        · cases f <;> cases g <;> rfl
        · cases f <;> simp [typeseqLoop]
      | cons c s =>
        cases f with
        | zero => simp at hf
        | succ f =>
          cases g with
          | zero => simp at hg
          | succ g =>
            simp only [typeseqLoop]
            cases hn : nextArgsig (c :: s) with
            | error e =>
              simp only [bind, Except.bind]
              refine ⟨trivial, ?_⟩
              rcases nextArgsig_error hn with h | ⟨h, _⟩ <;> subst h <;> simp
            | ok r =>
              obtain ⟨t, s'⟩ := r
              simp only [bind, Except.bind]
              split
              · exact ⟨rfl, by simp⟩
              · rename_i hne
                have hlt : s'.length ≤ s.length := by
                  rcases nextArgsig_ok hn with ⟨h1, h2⟩ | ⟨h1, h2, h3⟩ | ⟨k, rest, h1, h2, h3⟩
                  · have := congrArg List.length h2
                    have h1' : 0 < t.length := List.length_pos_iff.2 h1
                    simp at this; omega
                  · exact absurd ⟨h2.symm, h1⟩ hne
                  · simp [h3]
                simp only [List.length_cons] at hf hg hs
                obtain ⟨h1, h2⟩ := ih s' (by omega) f g (by omega) (by omega)
                rw [← h1]
                refine ⟨rfl, ?_⟩
                cases hl : typeseqLoop f s' with
                | error e => rw [hl] at h2; simpa using h2
                | ok x => simp
  exact key s.length s (Nat.le_refl _) fuel (s.length + 1) h (by omega)

/-- One step of the splitter. -/
theorem typeseq_step {s t s' : Str} (h : nextArgsig s = .ok (t, s')) (ht : t ≠ []) :
    typeseq s = (typeseq s').map (t :: ·) := by
  cases s with
  | nil => simp [nextArgsig] at h
  | cons c s =>
    unfold typeseq
    rw [typeseqLoop]
    · simp only [h, bind, Except.bind, ht, and_false, if_false]
      have hlen : s'.length ≤ (c :: s).length := by
        rcases nextArgsig_ok h with ⟨h1, h2⟩ | ⟨h1, h2, h3⟩ | ⟨k, rest, h1, h2, h3⟩
        · rw [h2]; simp
        · rw [h2]; simp
        · simp [h3]
      rw [(typeseqLoop_fuel s' (c :: s).length hlen).1]
      unfold typeseq
      cases typeseqLoop (s'.length + 1) s' <;> rfl
    · simp

theorem typeseq_nil : typeseq [] = .ok [] := rfl

theorem typeseq_descs (ts : List JType) (h : ∀ t ∈ ts, t.Names NoSemi) :
    typeseq (ts.flatMap JType.desc) = .ok (ts.map JType.desc) := by
  induction ts with
  | nil => rfl
  | cons t ts ih =>
    rw [List.flatMap_cons, typeseq_step (nextArgsig_desc t (h t (by simp)) _) (desc_ne_nil t),
      ih (fun x hx => h x (by simp [hx]))]
    rfl

theorem typeseq_ret (r : Option JType) (h : ∀ t, r = some t → t.Names NoSemi) :
    typeseq (retDesc r) = .ok [retDesc r] := by
  have h1 := nextArgsig_ret r h []
  rw [List.append_nil] at h1
  rw [typeseq_step h1 (by cases r <;> simp [retDesc, desc_ne_nil])]
  rfl

theorem not_mem_desc (c : Char) (t : JType) (hc : c ∉ ['B', 'C', 'D', 'F', 'I', 'J', 'S', 'Z', 'L', ';', '['])
    (h : t.Names (fun n => c ∉ n)) : c ∉ t.desc := by
  simp only [List.mem_cons, List.not_mem_nil, or_false, not_or] at hc
  induction t with
  | prim p => cases p <;> simp [JType.desc, Prim.desc, hc]
  | cls n =>
    simp only [JType.desc, List.mem_cons, List.mem_append, List.not_mem_nil, or_false, not_or]
    exact ⟨hc.2.2.2.2.2.2.2.2.1, h, hc.2.2.2.2.2.2.2.2.2.1⟩
  | arr t ih =>
    simp only [JType.desc, List.mem_cons, not_or]
    exact ⟨hc.2.2.2.2.2.2.2.2.2.2, ih h⟩

theorem Names.imp {P Q : Str → Prop} (hpq : ∀ n, P n → Q n) {t : JType} (h : t.Names P) :
    t.Names Q := by
  induction t with
  | prim p => trivial
  | cls n => exact hpq n h
  | arr t ih => exact ih h

theorem typeseq_method (args : List JType) (ret : Option JType)
    (ha : ∀ t ∈ args, t.Names fun n => ')' ∉ n) (hr : ∀ t, ret = some t → t.Names NoSemi) :
    typeseq (methodDesc args ret) =
      .ok ['(' :: (args.flatMap JType.desc ++ [')']), retDesc ret] := by
  have hnot : ')' ∉ '(' :: args.flatMap JType.desc := by
    simp only [List.mem_cons, List.mem_flatMap, not_or, not_exists, not_and]
    exact ⟨by decide, fun t ht => not_mem_desc ')' t (by decide) (ha t ht)⟩
  have h1 : nextArgsig (methodDesc args ret) =
      .ok ('(' :: (args.flatMap JType.desc ++ [')']), retDesc ret) := by
    unfold methodDesc
    simp only [nextArgsig]
    rw [if_neg (by decide), if_neg (by decide), if_neg (by decide), if_pos trivial]
    rw [show '(' :: (args.flatMap JType.desc ++ ')' :: retDesc ret) =
      ('(' :: args.flatMap JType.desc) ++ ')' :: retDesc ret by simp, findEnd_append _ _ _ hnot]
    rw [show ('(' :: args.flatMap JType.desc) ++ ')' :: retDesc ret =
      ('(' :: (args.flatMap JType.desc ++ [')'])) ++ retDesc ret by simp]
    rw [show ('(' :: args.flatMap JType.desc).length + 1 =
      ('(' :: (args.flatMap JType.desc ++ [')'])).length by simp]
    rw [List.take_left, List.drop_left]
  rw [typeseq_step h1 (by simp), typeseq_ret ret hr]
  rfl

theorem inner_paren (s : Str) : inner ('(' :: (s ++ [')'])) = s := by
  simp [inner]

/-! ### Pretty types -/

theorem prettyTypeAux_desc (t : JType) (fuel : Nat) (h : t.desc.length ≤ fuel) :
    prettyTypeAux fuel t.desc = .ok t.java := by
  induction t generalizing fuel with
  | prim p =>
    cases fuel with
    | zero => simp [JType.desc] at h
    | succ f => cases p <;> rfl
  | cls n =>
    cases fuel with
    | zero => simp [JType.desc] at h
    | succ f => simp [JType.desc, prettyTypeAux, JType.java, prettyClass]
  | arr t ih =>
    cases fuel with
    | zero => simp [JType.desc] at h
    | succ f =>
      have := ih f (by simp [JType.desc] at h; omega)
      simp [JType.desc, prettyTypeAux, this, bind, Except.bind, JType.java]

theorem prettyType_desc (t : JType) : prettyType t.desc = .ok t.java :=
  prettyTypeAux_desc t _ (by omega)

theorem prettyType_ret (r : Option JType) : prettyType (retDesc r) = .ok (retJava r) := by
  cases r with
  | none => rfl
  | some t => exact prettyType_desc t

theorem mapM_ok {α β : Type} (f : α → Res β) (g : α → β) (l : List α)
    (h : ∀ a ∈ l, f a = .ok (g a)) : l.mapM f = .ok (l.map g) := by
  induction l with
  | nil => rfl
  | cons a l ih =>
    rw [List.mapM_cons, h a (by simp), ih (fun x hx => h x (by simp [hx]))]
    rfl

theorem mapM_pretty (ts : List JType) :
    (ts.map JType.desc).mapM prettyType = .ok (ts.map JType.java) := by
  induction ts with
  | nil => rfl
  | cons a l ih =>
    rw [List.map_cons, List.mapM_cons, prettyType_desc, ih]
    rfl

theorem prettyType_parens (args : List JType) (h : ∀ t ∈ args, t.Names NoSemi) :
    prettyType ('(' :: (args.flatMap JType.desc ++ [')'])) =
      .ok ("(".toList ++ joinWith ",".toList (args.map JType.java) ++ ")".toList) := by
  unfold prettyType
  have h1 : (args.map JType.desc).mapM
      (prettyTypeAux ('(' :: (args.flatMap JType.desc ++ [')'])).length) =
      .ok (args.map JType.java) := by
    rw [List.mapM_map]
    refine mapM_ok _ _ args ?_
    intro t ht
    refine prettyTypeAux_desc t _ ?_
    have : t.desc.length ≤ (args.flatMap JType.desc).length := by
      obtain ⟨a, b, rfl⟩ := List.append_of_mem ht
      simp
      omega
    simp only [List.length_cons, List.length_append, List.length_nil]; omega
  simp only [prettyTypeAux, List.dropLast_concat, typeseq_descs args h, bind, Except.bind]
  simp only [List.length_cons, List.length_append, List.length_nil] at h1
  simp only [List.length_cons, List.length_append, List.length_nil, h1]
  rfl

theorem prettyTypeseq_method (args : List JType) (ret : Option JType)
    (ha : ∀ t ∈ args, t.Names fun n => ')' ∉ n ∧ ';' ∉ n)
    (hr : ∀ t, ret = some t → t.Names NoSemi) :
    prettyTypeseq (methodDesc args ret) =
      .ok ["(".toList ++ joinWith ",".toList (args.map JType.java) ++ ")".toList, retJava ret] := by
  unfold prettyTypeseq
  rw [typeseq_method args ret (fun t ht => Names.imp (fun n h => h.1) (ha t ht)) hr]
  simp only [bind, Except.bind, List.mapM_cons,
    prettyType_parens args (fun t ht => Names.imp (fun n h => h.2) (ha t ht)), prettyType_ret,
    List.mapM_nil]
  rfl

end Javatools
