import Verif.Props.LinkExact

/-! For exactly which files the links to style sheets and scripts lead there, C117. -/

namespace Javatools

open Spec

/-- A way that makes a place longer by as many names as it has parts consists of these names. -/
theorem foldl_step_full (l : List Str) (p : Place) (h : p.length + l.length ≤ (l.foldl step p).length) :
    l.foldl step p = p ++ l := by
  induction l generalizing p with
  | nil => simp
  | cons c l ih =>
    have h1 := foldl_step_length l (step p c)
    rw [List.foldl_cons] at h ⊢
    simp only [List.length_cons] at h
    have h2 : step p c = p ++ [c] := by
      have h3 : p.length + 1 ≤ (step p c).length := by omega
      unfold step at h3 ⊢
      split
      · rename_i hc; rw [if_pos hc] at h3; omega
      · rename_i hc
        rw [if_neg hc] at h3
        split
        · rename_i hd; rw [if_pos hd] at h3; simp at h3; omega
        · rfl
    rw [h2] at h ⊢
    rw [ih _ (by simp only [List.length_append, List.length_singleton]; omega)]
    simp

theorem splitAll_inj {a b : Str} (h : splitAll '/' a = splitAll '/' b) : a = b := by
  induction a generalizing b with
  | nil =>
    have := congrArg List.length h
    rw [splitAll_count, splitAll_count] at this
    cases b with
    | nil => rfl
    | cons c b =>
      by_cases hc : c = '/'
      · subst hc; simp at this
      · simp only [splitAll, if_neg hc] at h
        split at h <;> simp at h
  | cons x a ih =>
    cases b with
    | nil =>
      by_cases hc : x = '/'
      · subst hc
        have := congrArg List.length h
        rw [splitAll_count, splitAll_count] at this
        simp at this
      · simp only [splitAll, if_neg hc] at h
        split at h <;> simp at h
    | cons y b =>
      have na := splitAll_ne_nil '/' a
      have nb := splitAll_ne_nil '/' b
      simp only [splitAll] at h
      by_cases hx : x = '/' <;> by_cases hy : y = '/'
      · rw [if_pos hx, if_pos hy] at h
        rw [ih (List.cons.inj h).2, hx, hy]
      · rw [if_pos hx, if_neg hy] at h; split at h <;> simp at h
      · rw [if_neg hx, if_pos hy] at h; split at h <;> simp at h
      · rw [if_neg hx, if_neg hy] at h
        cases ha : splitAll '/' a with
        | nil => exact absurd ha na
        | cons p ps =>
          cases hb : splitAll '/' b with
          | nil => exact absurd hb nb
          | cons q qs =>
            rw [ha, hb] at h
            simp only [List.cons.injEq] at h
            obtain ⟨⟨h1, h2⟩, h3⟩ := h
            have hab : splitAll '/' a = splitAll '/' b := by rw [ha, hb, h2, h3]
            rw [h1, ih hab]

theorem foldl_pathJoin (cs : List Str) (c : Str) (h : ∀ x ∈ c :: cs, x ≠ [] ∧ '/' ∉ x) :
    cs.foldl pathJoin c = slashed (c :: cs) := by
  have key : ∀ (cs : List Str) (a n : Str), (∀ x ∈ n :: cs, x ≠ [] ∧ '/' ∉ x) →
      cs.foldl pathJoin (a ++ n) = a ++ slashed (n :: cs) := by
    intro cs
    induction cs with
    | nil => intro a n _; rfl
    | cons x cs ih =>
      intro a n hx
      have hn := hx n (by simp)
      have hx' := hx x (by simp)
      have : pathJoin (a ++ n) x = a ++ n ++ '/' :: x := by
        unfold pathJoin
        rw [if_neg (fun e => hx'.2 (List.mem_of_head? e)), if_neg]
        rintro (e | e)
        · exact hn.1 (List.append_eq_nil_iff.1 e).2
        · obtain ⟨w, hw⟩ : ∃ w, n.getLast? = some w := by
            cases hg : n.getLast? with
            | none => exact absurd (List.getLast?_eq_none_iff.1 hg) hn.1
            | some w => exact ⟨w, rfl⟩
          rw [List.getLast?_append, hw] at e
          simp only [Option.some_or, Option.some.injEq] at e
          exact hn.2 (e ▸ List.mem_of_getLast? hw)
      rw [List.foldl_cons, this]
      have := ih (a ++ n ++ ['/']) x fun y hy => hx y (by simp at hy ⊢; exact .inr hy)
      simpa [slashed] using this
  simpa using key cs [] c h

/-- The way up. -/
def upText (k : Nat) : Str := dirText (List.replicate k ['.', '.'])

theorem upText_succ (k : Nat) : upText (k + 1) = '.' :: '.' :: '/' :: upText k := by
  simp [upText, dirText, List.replicate_succ]

theorem upText_chars (k : Nat) : ∀ c ∈ upText k, c = '.' ∨ c = '/' := by
  induction k with
  | zero => simp [upText, dirText]
  | succ k ih =>
    rw [upText_succ]
    intro c hc
    simp only [List.mem_cons] at hc
    rcases hc with h | h | h | h
    · exact .inl h
    · exact .inl h
    · exact .inr h
    · exact ih c h

theorem slashed_up (k : Nat) {q : List Str} (hq : q ≠ []) :
    slashed (List.replicate k ['.', '.'] ++ q) = upText k ++ slashed q := by
  induction k with
  | zero => simp [upText, dirText]
  | succ k ih =>
    rw [upText_succ]
    rw [List.replicate_succ, List.cons_append]
    have : List.replicate k ['.', '.'] ++ q ≠ [] := by simp [hq]
    cases hr : List.replicate k ['.', '.'] ++ q with
    | nil => exact absurd hr this
    | cons a l => rw [hr] at ih; simp [slashed, ih]

theorem place_upText (common up : Place) (f : Str) (hf : f.head? ≠ some '/') :
    place (common ++ up) (upText up.length ++ f) = place common f := by
  have key : ∀ k, splitAll '/' (upText k ++ f) = List.replicate k ['.', '.'] ++ splitAll '/' f := by
    intro k
    induction k with
    | zero => simp [upText, dirText]
    | succ k ih =>
      rw [upText_succ]
      have : ('.' :: '.' :: '/' :: upText k) ++ f = ['.', '.'] ++ '/' :: (upText k ++ f) := by simp
      rw [this, splitAll_slash, ih, splitAll_no (by decide)]
      simp [List.replicate_succ]
  have hh : (upText up.length ++ f).head? ≠ some '/' := by
    cases up with
    | nil => simpa [upText, dirText] using hf
    | cons a up => rw [List.length_cons, upText_succ]; simp
  unfold place
  rw [if_neg hh, if_neg hf, key, List.foldl_append, foldl_up]
  simp

theorem takeWhile_up (k : Nat) {x : Char} (h1 : x ≠ '.') (h2 : x ≠ '/') (s : Str) :
    (upText k ++ s).takeWhile (fun c => c ≠ x) = upText k ++ s.takeWhile (fun c => c ≠ x) := by
  refine List.takeWhile_append_of_pos ?_
  intro c hc
  rcases upText_chars k c hc with rfl | rfl
  · simpa using Ne.symm h1
  · simpa using Ne.symm h2

theorem first_name {p : List Str} (hn : ∀ n ∈ p, IsName n) :
    (slashed p).takeWhile (fun c => c ≠ '/') = p.headD [] := by
  match p with
  | [] => rfl
  | [n] => exact takeWhile_no (hn n (by simp)).2.1
  | n :: m :: ns =>
    rw [slashed, takeWhile_slash]
    exact takeWhile_no (hn n (by simp)).2.1

theorem mem_slashed {p : List Str} {n : Str} {x : Char} (hn : n ∈ p) (hx : x ∈ n) : x ∈ slashed p := by
  match p with
  | [] => simp at hn
  | [m] => simp at hn; subst hn; exact hx
  | m :: k :: ns =>
    rw [slashed]
    rcases List.mem_cons.1 hn with rfl | h
    · exact List.mem_append_left _ hx
    · exact List.mem_append_right _ (List.mem_cons_of_mem _ (mem_slashed h hx))

theorem commonLen_append (c a b : List Str) (h : a.head? ≠ b.head?) : commonLen (c ++ a) (c ++ b) = c.length := by
  induction c with
  | nil =>
    match a, b with
    | [], _ => simp [commonLen]
    | _ :: _, [] => simp [commonLen]
    | x :: _, y :: _ =>
      have : x ≠ y := fun e => h (by simp [e])
      simp [commonLen, this]
  | cons x c ih => simp [commonLen, ih]

theorem relpath_text {cwd path start : Str} (hc : cwd.head? = some '/') (hp : path ≠ []) {common up rest : Place}
    (hs : place (place [] cwd) start = common ++ up) (ht : place (place [] cwd) path = common ++ rest)
    (hr : rest ≠ []) (hmax : up.head? ≠ rest.head?) :
    relpath cwd path start = .ok (upText up.length ++ slashed rest) := by
  have hnm : Names (common ++ rest) := ht ▸ names_place (names_place (by intro n hn; simp at hn) _) _
  unfold relpath
  rw [if_neg hp]
  simp only [abspath_place hc, hs, ht]
  rw [commonLen_append _ _ _ hmax, ← slashed_up _ hr]
  have e1 : (common ++ up).length - common.length = up.length := by simp
  have e2 : (common ++ rest).drop common.length = rest := by simp
  rw [e1, e2]
  cases hl : List.replicate up.length ['.', '.'] ++ rest with
  | nil => simp [hr] at hl
  | cons c cs =>
    simp only
    rw [foldl_pathJoin]
    intro x hx
    rw [← hl] at hx
    rcases List.mem_append.1 hx with hx | hx
    · obtain ⟨_, rfl⟩ := List.mem_replicate.1 hx
      decide
    · have := hnm x (List.mem_append_right _ hx)
      exact ⟨this.1, this.2.1⟩

/-- C117, for exactly which files: of those whose names, from where their way leaves that of the report on, have no
`%` and `&`, the link leads to the file unless one of these names has a `#`, `?` or `"`, or the file is below the
directory of the report and the first of these names has a `:`. -/
theorem C117_exact (ex : Str → Bool) (cwd basedir uri : Str) (hc : cwd.head? = some '/') (hu : uri ≠ [])
    (ha : ¬ Absolute uri) (he : ex uri = true) (common up rest : Place)
    (hb : place (place [] cwd) basedir = common ++ up) (hp : place (place [] cwd) uri = common ++ rest)
    (hr : rest ≠ []) (hmax : up.head? ≠ rest.head?) (hpc : ∀ n ∈ rest, '%' ∉ n ∧ '&' ∉ n) :
    (∃ v, relativeUri ex cwd basedir uri = .ok v ∧
      follow (place (place [] cwd) basedir) (attrValue v) = some (place (place [] cwd) uri)) ↔
    (∀ n ∈ rest, '#' ∉ n ∧ '?' ∉ n ∧ '"' ∉ n) ∧ (up = [] → ':' ∉ rest.headD []) := by
  have hnm : Names (common ++ rest) := hp ▸ names_place (names_place (by intro n hn; simp at hn) _) _
  have hnr : ∀ n ∈ rest, IsName n := fun n hn => hnm n (List.mem_append_right _ hn)
  rw [(relativeUri_eq ex cwd basedir uri).2 ha he, relpath_text hc hu hb hp hr hmax, hb, hp]
  have hhead := (slashed_head hr hnr).2
  have hpc1 : '%' ∉ slashed rest := slashed_chars (by decide) fun n hn => (hpc n hn).1
  have ham1 : '&' ∉ slashed rest := slashed_chars (by decide) fun n hn => (hpc n hn).2
  have hupno : ∀ x, x ≠ '.' → x ≠ '/' → x ∉ upText up.length := fun x h1 h2 h =>
    (upText_chars _ x h).elim h1 h2
  have hA : attrValue (upText up.length ++ slashed rest) =
      upText up.length ++ (slashed rest).takeWhile (fun c => c ≠ '"') := by
    unfold attrValue
    rw [takeWhile_up _ (by decide) (by decide)]
    refine htmlText_plain _ fun h => ?_
    rcases List.mem_append.1 h with h | h
    · exact hupno _ (by decide) (by decide) h
    · exact ham1 ((List.takeWhile_sublist _).subset h)
  have hslash : (upText up.length ++ slashed rest).takeWhile (fun c => c ≠ '/') =
      if up = [] then rest.headD [] else ['.', '.'] := by
    cases up with
    | nil => rw [if_pos rfl, ← first_name hnr]; rfl
    | cons a up => rw [List.length_cons, upText_succ]; simp
  have hplace : place common (slashed rest) = common ++ rest := place_slashed common hr hnr
  have hiff : (∃ v, (Except.ok (upText up.length ++ slashed rest) : Res Str) = .ok v ∧
      follow (common ++ up) (attrValue v) = some (common ++ rest)) ↔
      follow (common ++ up) (attrValue (upText up.length ++ slashed rest)) = some (common ++ rest) :=
    ⟨fun ⟨v, h1, h2⟩ => by cases h1; exact h2, fun h => ⟨_, rfl, h⟩⟩
  rw [hiff, hA]
  constructor
  · intro h
    have hbad : ∀ x ∈ ['#', '?', '"'], x ∉ slashed rest := by
      intro x hx hxe
      unfold follow at h
      rw [takeWhile_up _ (by decide) (by decide)] at h
      simp only at h
      split at h
      · cases h
      · split at h
        · cases h
        · rw [takeWhile_up _ (by decide) (by decide)] at h
          generalize hF : ((((slashed rest).takeWhile (fun c => c ≠ '"')).takeWhile (fun c => c ≠ '#')).takeWhile
            (fun c => c ≠ '?')) = F at h
          have hpre : F <+: slashed rest := by
            rw [← hF]
            exact ((List.takeWhile_prefix _).trans (List.takeWhile_prefix _)).trans (List.takeWhile_prefix _)
          have hnot : x ∉ F := by
            intro hm
            rw [← hF] at hm
            have m1 := takeWhile_holds hm
            have hm2 := (List.takeWhile_sublist _).subset hm
            have m2 := takeWhile_holds hm2
            have m3 := takeWhile_holds ((List.takeWhile_sublist _).subset hm2)
            simp only [decide_eq_true_eq] at m1 m2 m3
            simp only [List.mem_cons, List.not_mem_nil, or_false] at hx
            rcases hx with rfl | rfl | rfl
            · exact m2 rfl
            · exact m1 rfl
            · exact m3 rfl
          have hFh : F.head? ≠ some '/' := by
            intro e
            obtain ⟨w, hw⟩ := hpre
            cases F with
            | nil => simp at e
            | cons y F => rw [← hw] at hhead; exact hhead (by simpa using e)
          rw [percentDecode_plain _ (fun hm => (List.mem_append.1 hm).elim (hupno _ (by decide) (by decide))
            fun h => hpc1 (hpre.subset h)), place_upText _ _ _ hFh] at h
          have h := Option.some.inj h
          unfold place at h
          rw [if_neg hFh] at h
          have hcount : (splitAll '/' F).length ≤ rest.length := by
            rw [splitAll_count]
            have h1 : F.count '/' ≤ (slashed rest).count '/' := hpre.sublist.count_le _
            have h2 : (slashed rest).count '/' + 1 = rest.length := by
              rw [← splitAll_count, split_plain hr hnr]
            omega
          have hfull := foldl_step_full (splitAll '/' F) common (by
            rw [h]; simp only [List.length_append]; omega)
          rw [h] at hfull
          have hparts := List.append_cancel_left hfull
          have : F = slashed rest := splitAll_inj (by rw [← hparts, split_plain hr hnr])
          exact hnot (this ▸ hxe)
    refine ⟨fun n hn => ⟨fun hx => hbad '#' (by simp) (mem_slashed hn hx),
      fun hx => hbad '?' (by simp) (mem_slashed hn hx), fun hx => hbad '"' (by simp) (mem_slashed hn hx)⟩,
      fun hup hcol => ?_⟩
    rw [takeWhile_no (hbad '"' (by simp))] at h
    unfold follow at h
    rw [takeWhile_up _ (by decide) (by decide), takeWhile_no (hbad '#' (by simp))] at h
    simp only at h
    rw [if_pos (by rw [hslash, if_pos hup]; exact hcol)] at h
    cases h
  · rintro ⟨h1, h2⟩
    have hno : ∀ x, x ≠ '/' → (∀ n ∈ rest, x ∉ n) → x ∉ slashed rest := fun x hx h => slashed_chars hx h
    rw [takeWhile_no (hno '"' (by decide) fun n hn => (h1 n hn).2.2)]
    unfold follow
    rw [takeWhile_up _ (by decide) (by decide), takeWhile_no (hno '#' (by decide) fun n hn => (h1 n hn).1)]
    simp only
    rw [if_neg, if_neg, takeWhile_up _ (by decide) (by decide),
      takeWhile_no (hno '?' (by decide) fun n hn => (h1 n hn).2.1),
      percentDecode_plain _ (fun hm => (List.mem_append.1 hm).elim (hupno _ (by decide) (by decide)) hpc1),
      place_upText _ _ _ hhead, hplace]
    · rw [List.isPrefixOf_iff_prefix]
      rintro ⟨w, hw⟩
      have := congrArg List.head? hw
      cases up with
      | nil => exact hhead (by simpa [upText, dirText] using this.symm)
      | cons a up => rw [List.length_cons, upText_succ] at this; simp at this
    · rw [hslash]
      split
      · rename_i hup; exact h2 hup
      · decide

/-- A `:` in the name of a style sheet matters below the directory of the report only. -/
example : (∃ v, relativeUri (fun _ => true) "/w".toList "rep".toList "css/a:b.css".toList = .ok v ∧
      follow (place (place [] "/w".toList) "rep".toList) (attrValue v) =
        some (place (place [] "/w".toList) "css/a:b.css".toList)) ∧
    ¬ ∃ v, relativeUri (fun _ => true) "/w".toList "rep".toList "rep/a:b.css".toList = .ok v ∧
      follow (place (place [] "/w".toList) "rep".toList) (attrValue v) =
        some (place (place [] "/w".toList) "rep/a:b.css".toList) := by
  constructor
  · exact (C117_exact _ _ _ _ (by decide) (by decide) (by unfold Absolute; decide) rfl ["w".toList] ["rep".toList]
      ["css".toList, "a:b.css".toList] (by decide) (by decide) (by decide) (by decide) (by decide)).2 (by decide)
  · exact fun h => absurd ((C117_exact _ _ _ _ (by decide) (by decide) (by unfold Absolute; decide) rfl
      ["w".toList, "rep".toList] [] ["a:b.css".toList] (by decide) (by decide) (by decide) (by decide)
      (by decide)).1 h) (by decide)

end Javatools
