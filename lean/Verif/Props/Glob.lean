import Verif.Model.Glob
/-
C61: glob lists.
-/
namespace Javatools

/-! ### Specification: shell globs -/

/-- The text `body` of a bracket expression (after an optional `!`): not empty, and `]` only as its
first character. -/
def BracketBody (body : Str) : Prop := body ≠ [] ∧ ']' ∉ body.tail

/-- `a-b` at the start of the text makes a range. -/
def StartsRange (rest : Str) : Prop := ∃ b r, rest = '-' :: b :: r

/-- The character belongs to the set written in the body, read from left to right. -/
inductive InBody (c : Char) : Str → Prop where
  | range (a b : Char) (rest : Str) (h1 : a ≤ c) (h2 : c ≤ b) : InBody c (a :: '-' :: b :: rest)
  | afterRange (a b : Char) (rest : Str) (h : InBody c rest) : InBody c (a :: '-' :: b :: rest)
  | single (rest : Str) (h : ¬ StartsRange rest) : InBody c (c :: rest)
  | afterSingle (a : Char) (rest : Str) (h : ¬ StartsRange rest) (hr : InBody c rest) :
      InBody c (a :: rest)

/-- `'[' :: pat` starts with a complete bracket expression with the body, negated or not, and
`rest` follows. -/
def Bracket (pat : Str) (neg : Bool) (body rest : Str) : Prop :=
  BracketBody body ∧ (neg = false → body.head? ≠ some '!') ∧
    pat = (if neg then ['!'] else []) ++ body ++ ']' :: rest

/-- The pattern matches the whole text. -/
inductive Glob : Str → Str → Prop where
  | nil : Glob [] []
  | star (p a b : Str) (h : Glob p b) : Glob ('*' :: p) (a ++ b)
  | any (p : Str) (c : Char) (s : Str) (h : Glob p s) : Glob ('?' :: p) (c :: s)
  | lit (p : Str) (c : Char) (s : Str) (hc : c ≠ '*' ∧ c ≠ '?' ∧ c ≠ '[') (h : Glob p s) :
      Glob (c :: p) (c :: s)
  | set (p : Str) (neg : Bool) (body rest : Str) (c : Char) (s : Str) (hb : Bracket p neg body rest)
      (hm : InBody c body ↔ neg = false) (h : Glob rest s) : Glob ('[' :: p) (c :: s)
  | unclosed (p s : Str) (hb : ∀ neg body rest, ¬ Bracket p neg body rest) (h : Glob p s) :
      Glob ('[' :: p) ('[' :: s)

/-! ### The translation -/

theorem untilBracket_iff (s t r : Str) :
    untilBracket s = some (t, r) ↔ ']' ∉ t ∧ s = t ++ ']' :: r := by
  induction s generalizing t with
  | nil => simp [untilBracket]
  | cons c s ih =>
    unfold untilBracket
    by_cases h : c = ']'
    · subst h
      simp only [if_true, Option.some.injEq, Prod.mk.injEq]
      constructor
      · rintro ⟨rfl, rfl⟩; simp
      · rintro ⟨h1, h2⟩
        cases t with
        | nil => simpa using h2
        | cons a t =>
          simp only [List.cons_append, List.cons.injEq] at h2
          exact absurd (by simp [← h2.1]) h1
    · simp only [if_neg h, Option.map_eq_some_iff]
      constructor
      · rintro ⟨⟨a, b⟩, h1, h2⟩
        simp only [Prod.mk.injEq] at h2
        obtain ⟨rfl, rfl⟩ := h2
        obtain ⟨h3, rfl⟩ := (ih a).1 h1
        exact ⟨by simp only [List.mem_cons, not_or]; exact ⟨fun e => h e.symm, h3⟩, rfl⟩
      · rintro ⟨h1, h2⟩
        cases t with
        | nil => simp only [List.nil_append, List.cons.injEq] at h2; exact absurd h2.1 h
        | cons a t =>
          simp only [List.cons_append, List.cons.injEq] at h2
          obtain ⟨rfl, rfl⟩ := h2
          simp only [List.mem_cons, not_or] at h1
          exact ⟨(t, r), (ih t).2 ⟨h1.2, rfl⟩, rfl⟩

/-- The text of a bracket expression as the specification sees it. -/
theorem bracketText_iff (pat text rest : Str) :
    bracketText pat = some (text, rest) ↔
      ∃ neg body, Bracket pat neg body rest ∧ text = (if neg then ['!'] else []) ++ body := by
  unfold bracketText
  split
  · rename_i cs
    rw [Option.map_eq_some_iff]
    constructor
    · rintro ⟨⟨a, b⟩, h1, h2⟩
      simp only [Prod.mk.injEq] at h2
      obtain ⟨rfl, rfl⟩ := h2
      obtain ⟨h3, rfl⟩ := (untilBracket_iff _ _ _).1 h1
      exact ⟨true, ']' :: a, ⟨⟨by simp, by simpa using h3⟩, by simp, by simp⟩, by simp⟩
    · rintro ⟨neg, body, ⟨⟨hb1, hb2⟩, hb3, hb4⟩, rfl⟩
      cases neg with
      | false =>
        cases body with
        | nil => exact absurd rfl hb1
        | cons a body =>
          simp only [Bool.false_eq_true, if_false, List.nil_append, List.cons_append,
            List.cons.injEq] at hb4
          simp [← hb4.1] at hb3
      | true =>
        cases body with
        | nil => exact absurd rfl hb1
        | cons a body =>
          simp only [if_true, List.singleton_append, List.cons_append, List.cons.injEq,
            true_and] at hb4
          obtain ⟨rfl, rfl⟩ := hb4
          exact ⟨(body, rest), (untilBracket_iff _ _ _).2 ⟨hb2, rfl⟩, by simp⟩
  · rename_i cs
    rw [Option.map_eq_some_iff]
    constructor
    · rintro ⟨⟨a, b⟩, h1, h2⟩
      simp only [Prod.mk.injEq] at h2
      obtain ⟨rfl, rfl⟩ := h2
      obtain ⟨h3, rfl⟩ := (untilBracket_iff _ _ _).1 h1
      exact ⟨false, ']' :: a, ⟨⟨by simp, by simpa using h3⟩, by simp, by simp⟩, by simp⟩
    · rintro ⟨neg, body, ⟨⟨hb1, hb2⟩, hb3, hb4⟩, rfl⟩
      cases neg with
      | true => simp at hb4
      | false =>
        cases body with
        | nil => exact absurd rfl hb1
        | cons a body =>
          simp only [Bool.false_eq_true, if_false, List.nil_append, List.cons_append,
            List.cons.injEq] at hb4
          obtain ⟨rfl, rfl⟩ := hb4
          exact ⟨(body, rest), (untilBracket_iff _ _ _).2 ⟨hb2, rfl⟩, by simp⟩
  · rename_i h1 h2
    rw [untilBracket_iff]
    constructor
    · rintro ⟨h3, rfl⟩
      cases text with
      | nil => exact absurd rfl (h2 rest)
      | cons a text =>
        by_cases ha : a = '!'
        · subst ha
          cases text with
          | nil => exact absurd rfl (h1 rest)
          | cons b text =>
            simp only [List.mem_cons, not_or] at h3
            exact ⟨true, b :: text, ⟨⟨by simp, h3.2.2⟩, by simp, by simp⟩, by simp⟩
        · simp only [List.mem_cons, not_or] at h3
          exact ⟨false, a :: text, ⟨⟨by simp, h3.2⟩, by simpa using ha, by simp⟩, by simp⟩
    · rintro ⟨neg, body, ⟨⟨hb1, hb2⟩, hb3, rfl⟩, rfl⟩
      refine ⟨?_, rfl⟩
      cases body with
      | nil => exact absurd rfl hb1
      | cons a body =>
        cases neg with
        | false =>
          simp only [Bool.false_eq_true, if_false, List.nil_append, List.mem_cons, not_or]
          refine ⟨?_, hb2⟩
          rintro rfl
          exact h2 (body ++ ']' :: rest) rfl
        | true =>
          simp only [if_true, List.singleton_append, List.mem_cons, not_or]
          refine ⟨by decide, ?_, hb2⟩
          rintro rfl
          exact h1 (body ++ ']' :: rest) rfl

theorem bracketTok_neg (body : Str) : bracketTok ('!' :: body) = .set true (globRanges body) := rfl

theorem bracketTok_pos (body : Str) (h : body.head? ≠ some '!') :
    bracketTok body = .set false (globRanges body) := by
  unfold bracketTok
  split
  · simp at h
  · rfl

theorem inBody_iff (c : Char) (body : Str) :
    InBody c body ↔ ∃ r ∈ globRanges body, r.1 ≤ c ∧ c ≤ r.2 := by
  fun_induction globRanges body with
  | case1 a b rest ih =>
    constructor
    · intro h
      cases h with
      | range _ _ _ h1 h2 => exact ⟨(a, b), by simp, h1, h2⟩
      | afterRange _ _ _ h =>
        obtain ⟨r, hr, h⟩ := ih.1 h
        exact ⟨r, by simp [hr], h⟩
      | single _ h => exact absurd ⟨b, rest, rfl⟩ h
      | afterSingle _ _ h => exact absurd ⟨b, rest, rfl⟩ h
    · rintro ⟨r, hr, h1, h2⟩
      rcases List.mem_cons.1 hr with rfl | hr
      · exact .range a b rest h1 h2
      · exact .afterRange a b rest (ih.2 ⟨r, hr, h1, h2⟩)
  | case2 a rest hne ih =>
    have hns : ¬ StartsRange rest := by
      rintro ⟨b, r, rfl⟩
      exact hne b r rfl
    constructor
    · intro h
      cases h with
      | range _ b r _ _ => exact absurd ⟨b, r, rfl⟩ hns
      | afterRange _ b r _ => exact absurd ⟨b, r, rfl⟩ hns
      | single _ _ => exact ⟨(c, c), by simp, Std.le_refl c, Std.le_refl c⟩
      | afterSingle _ _ _ h =>
        obtain ⟨r, hr, h⟩ := ih.1 h
        exact ⟨r, by simp [hr], h⟩
    · rintro ⟨r, hr, h1, h2⟩
      rcases List.mem_cons.1 hr with rfl | hr
      · have : a = c := Std.le_antisymm h1 h2
        subst this
        exact .single rest hns
      · exact .afterSingle a rest hns (ih.2 ⟨r, hr, h1, h2⟩)
  | case3 =>
    constructor
    · intro h; cases h
    · rintro ⟨r, hr, _⟩; simp at hr

theorem set_char (neg : Bool) (body : Str) (c : Char) :
    (GlobTok.set neg (globRanges body)).char c = true ↔ (InBody c body ↔ neg = false) := by
  rw [inBody_iff]
  simp only [GlobTok.char]
  have : ((globRanges body).any fun r => decide (r.1 ≤ c) && decide (c ≤ r.2)) = true ↔
      ∃ r ∈ globRanges body, r.1 ≤ c ∧ c ≤ r.2 := by simp
  rw [← this]
  cases (globRanges body).any fun r => decide (r.1 ≤ c) && decide (c ≤ r.2) <;> cases neg <;> simp

theorem bracketText_shorter {pat text rest : Str} (h : bracketText pat = some (text, rest)) :
    rest.length < pat.length := by
  obtain ⟨neg, body, ⟨_, _, rfl⟩, _⟩ := (bracketText_iff _ _ _).1 h
  simp only [List.length_append, List.length_cons]
  omega

theorem globToksAux_fuel (n m : Nat) (pat : Str) (hn : pat.length ≤ n) (hm : pat.length ≤ m) :
    globToksAux n pat = globToksAux m pat := by
  induction n generalizing m pat with
  | zero =>
    have : pat = [] := List.length_eq_zero_iff.1 (by omega)
    subst this
    cases m <;> rfl
  | succ n ih =>
    cases m with
    | zero =>
      have : pat = [] := List.length_eq_zero_iff.1 (by omega)
      subst this
      rfl
    | succ m =>
      unfold globToksAux
      split
      · rfl
      · simp only [List.length_cons] at hn hm; rw [ih m _ (by omega) (by omega)]
      · simp only [List.length_cons] at hn hm; rw [ih m _ (by omega) (by omega)]
      · simp only [List.length_cons] at hn hm
        split
        · rename_i hb
          have := bracketText_shorter hb
          rw [ih m _ (by omega) (by omega)]
        · rw [ih m _ (by omega) (by omega)]
      · simp only [List.length_cons] at hn hm; rw [ih m _ (by omega) (by omega)]

theorem globToks_star (p : Str) : globToks ('*' :: p) = .star :: globToks p := rfl
theorem globToks_any (p : Str) : globToks ('?' :: p) = .any :: globToks p := rfl

theorem globToks_lit (c : Char) (p : Str) (hc : c ≠ '*' ∧ c ≠ '?' ∧ c ≠ '[') :
    globToks (c :: p) = .lit c :: globToks p := by
  unfold globToks
  simp only [List.length_cons, globToksAux]
  split <;> simp_all

theorem globToks_set {p text rest : Str} (h : bracketText p = some (text, rest)) :
    globToks ('[' :: p) = bracketTok text :: globToks rest := by
  have := bracketText_shorter h
  simp only [globToks, List.length_cons, globToksAux, h]
  rw [globToksAux_fuel p.length rest.length rest (by omega) (by omega)]

theorem globToks_unclosed {p : Str} (h : bracketText p = none) :
    globToks ('[' :: p) = .lit '[' :: globToks p := by
  simp only [globToks, List.length_cons, globToksAux, h]

theorem mem_suffixes (s r : Str) : r ∈ suffixes s ↔ ∃ a, s = a ++ r := by
  induction s with
  | nil =>
    simp only [suffixes, List.mem_singleton]
    constructor
    · rintro rfl; exact ⟨[], rfl⟩
    · rintro ⟨a, h⟩; exact (List.append_eq_nil_iff.1 h.symm).2
  | cons c s ih =>
    simp only [suffixes, List.mem_cons, ih]
    constructor
    · rintro (rfl | ⟨a, rfl⟩)
      · exact ⟨[], rfl⟩
      · exact ⟨c :: a, rfl⟩
    · rintro ⟨a, h⟩
      cases a with
      | nil => exact .inl h.symm
      | cons d a =>
        simp only [List.cons_append, List.cons.injEq] at h
        exact .inr ⟨a, h.2⟩

theorem toksMatch_star (ts : List GlobTok) (s : Str) :
    toksMatch (.star :: ts) s = true ↔ ∃ a b, s = a ++ b ∧ toksMatch ts b = true := by
  rw [toksMatch, List.any_eq_true]
  constructor
  · rintro ⟨r, hr, h⟩
    obtain ⟨a, rfl⟩ := (mem_suffixes s r).1 hr
    exact ⟨a, r, rfl, h⟩
  · rintro ⟨a, b, rfl, h⟩
    exact ⟨b, (mem_suffixes _ b).2 ⟨a, rfl⟩, h⟩

theorem toksMatch_tok (t : GlobTok) (ht : t ≠ .star) (ts : List GlobTok) (s : Str) :
    toksMatch (t :: ts) s = true ↔ ∃ c r, s = c :: r ∧ t.char c = true ∧ toksMatch ts r = true := by
  cases s with
  | nil => cases t <;> first | exact absurd rfl ht | simp [toksMatch]
  | cons c s =>
    have : toksMatch (t :: ts) (c :: s) = (t.char c && toksMatch ts s) := by
      cases t <;> first | exact absurd rfl ht | simp [toksMatch]
    rw [this, Bool.and_eq_true]
    constructor
    · intro h; exact ⟨c, s, rfl, h⟩
    · rintro ⟨d, r, h1, h2⟩
      simp only [List.cons.injEq] at h1
      obtain ⟨rfl, rfl⟩ := h1
      exact h2

theorem bracketTok_ne_star (t : Str) : bracketTok t ≠ .star := by
  unfold bracketTok; split <;> simp

/-- C61, one pattern: `fnmatch` is true exactly when the pattern matches the whole name. -/
theorem C61_fnmatch (name pat : Str) : fnmatch name pat = true ↔ Glob pat name := by
  unfold fnmatch
  obtain ⟨n, hn⟩ : ∃ n, pat.length ≤ n := ⟨_, Nat.le_refl _⟩
  induction n generalizing pat name with
  | zero =>
    have : pat = [] := List.length_eq_zero_iff.1 (by omega)
    subst this
    show toksMatch [] name = true ↔ _
    rw [toksMatch]
    constructor
    · intro h
      have : name = [] := by simpa using h
      subst this
      exact .nil
    · intro h; cases h; rfl
  | succ n ih =>
    cases pat with
    | nil => exact ih name [] (by simp)
    | cons c p =>
      simp only [List.length_cons] at hn
      by_cases h1 : c = '*'
      · subst h1
        rw [globToks_star, toksMatch_star]
        constructor
        · rintro ⟨a, b, rfl, h⟩; exact .star p a b ((ih b p (by omega)).1 h)
        · intro h
          cases h with
          | star _ a b h => exact ⟨a, b, rfl, (ih b p (by omega)).2 h⟩
          | lit _ _ _ hc => exact absurd rfl hc.1
      · by_cases h2 : c = '?'
        · subst h2
          rw [globToks_any, toksMatch_tok _ (by simp)]
          constructor
          · rintro ⟨a, b, rfl, _, h⟩; exact .any p a b ((ih b p (by omega)).1 h)
          · intro h
            cases h with
            | any _ a b h => exact ⟨a, b, rfl, rfl, (ih b p (by omega)).2 h⟩
            | lit _ _ _ hc => exact absurd rfl hc.2.1
        · by_cases h3 : c = '['
          · subst h3
            cases hb : bracketText p with
            | none =>
              rw [globToks_unclosed hb, toksMatch_tok _ (by simp)]
              have hun : ∀ neg body rest, ¬ Bracket p neg body rest := by
                intro neg body rest h
                have := (bracketText_iff p _ rest).2 ⟨neg, body, h, rfl⟩
                rw [hb] at this
                simp at this
              constructor
              · rintro ⟨a, b, rfl, hc, h⟩
                simp only [GlobTok.char, decide_eq_true_eq] at hc
                subst hc
                exact .unclosed p b hun ((ih b p (by omega)).1 h)
              · intro h
                cases h with
                | lit _ _ _ hc => exact absurd rfl hc.2.2
                | set _ neg body rest _ _ hb => exact absurd hb (hun _ _ _)
                | unclosed _ s _ h => exact ⟨'[', s, rfl, by simp [GlobTok.char], (ih s p (by omega)).2 h⟩
            | some tr =>
              obtain ⟨text, rest⟩ := tr
              have hsh := bracketText_shorter hb
              rw [globToks_set hb, toksMatch_tok _ (bracketTok_ne_star _)]
              have key : ∀ neg body rest', Bracket p neg body rest' →
                  rest' = rest ∧ bracketTok text = .set neg (globRanges body) := by
                intro neg body rest' h
                have h5 := (bracketText_iff p _ rest').2 ⟨neg, body, h, rfl⟩
                rw [hb] at h5
                simp only [Option.some.injEq, Prod.mk.injEq] at h5
                refine ⟨h5.2.symm, ?_⟩
                rw [h5.1]
                cases neg with
                | true => exact bracketTok_neg body
                | false => exact bracketTok_pos body (h.2.1 rfl)
              constructor
              · rintro ⟨a, b, rfl, hc, h⟩
                obtain ⟨neg, body, hbr, _⟩ := (bracketText_iff _ _ _).1 hb
                rw [(key neg body rest hbr).2] at hc
                exact .set p neg body rest a b hbr ((set_char neg body a).1 hc)
                  ((ih b rest (by omega)).1 h)
              · intro h
                cases h with
                | lit _ _ _ hc => exact absurd rfl hc.2.2
                | set _ neg body rest' a s hbr hm h =>
                  obtain ⟨rfl, h5⟩ := key _ _ _ hbr
                  rw [h5]
                  exact ⟨a, s, rfl, (set_char neg body a).2 hm, (ih s rest' (by omega)).2 h⟩
                | unclosed _ s hun _ =>
                  obtain ⟨neg, body, hbr, _⟩ := (bracketText_iff _ _ _).1 hb
                  exact absurd hbr (hun _ _ _)
          · rw [globToks_lit c p ⟨h1, h2, h3⟩, toksMatch_tok _ (by simp)]
            constructor
            · rintro ⟨a, b, rfl, hc, h⟩
              simp only [GlobTok.char, decide_eq_true_eq] at hc
              subst hc
              exact .lit p c b ⟨h1, h2, h3⟩ ((ih b p (by omega)).1 h)
            · intro h
              cases h with
              | star => exact absurd rfl h1
              | any => exact absurd rfl h2
              | lit _ _ s _ h => exact ⟨c, s, rfl, by simp [GlobTok.char], (ih s p (by omega)).2 h⟩
              | set => exact absurd rfl h3
              | unclosed => exact absurd rfl h3

/-- C61: `fnmatches` is true exactly when some non-empty pattern matches the whole entry. -/
theorem C61_fnmatches (entry : Str) (ps : List Str) :
    fnmatches entry ps = true ↔ ∃ p ∈ ps, p ≠ [] ∧ Glob p entry := by
  induction ps with
  | nil => simp [fnmatches]
  | cons p ps ih =>
    unfold fnmatches
    have hp : (!p.isEmpty && fnmatch entry p) = true ↔ p ≠ [] ∧ Glob p entry := by
      rw [Bool.and_eq_true, C61_fnmatch]
      cases p <;> simp
    by_cases h : (!p.isEmpty && fnmatch entry p) = true
    · rw [if_pos h]
      simp only [true_iff]
      exact ⟨p, by simp, hp.1 h⟩
    · rw [if_neg h, ih]
      constructor
      · rintro ⟨q, hq, h2⟩; exact ⟨q, by simp [hq], h2⟩
      · rintro ⟨q, hq, h2⟩
        rcases List.mem_cons.1 hq with rfl | hq
        · exact absurd (hp.2 h2) h
        · exact ⟨q, hq, h2⟩

/-- C61: the order of the patterns and repetitions do not matter, and more patterns match more. -/
theorem C61_monotone (entry : Str) (ps qs : List Str) (h : ∀ p ∈ ps, p ∈ qs)
    (hm : fnmatches entry ps = true) : fnmatches entry qs = true := by
  rw [C61_fnmatches] at hm ⊢
  obtain ⟨p, hp, h2⟩ := hm
  exact ⟨p, h p hp, h2⟩

theorem C61_order (entry : Str) (ps qs : List Str) (h : ∀ p, p ∈ ps ↔ p ∈ qs) :
    fnmatches entry ps = fnmatches entry qs := by
  rw [Bool.eq_iff_iff]
  exact ⟨C61_monotone entry ps qs fun p => (h p).1, C61_monotone entry qs ps fun p => (h p).2⟩

/-- `*` alone matches everything, and the text before and after a star is matched literally. -/
theorem C61_star_suffix (name suf : Str) (h : ∀ c ∈ suf, c ≠ '*' ∧ c ≠ '?' ∧ c ≠ '[') :
    fnmatch name ('*' :: suf) = true ↔ suf <:+ name := by
  have hlit : ∀ (s t : Str), (∀ c ∈ t, c ≠ '*' ∧ c ≠ '?' ∧ c ≠ '[') → (Glob t s ↔ s = t) := by
    intro s t
    induction t generalizing s with
    | nil => intro _; exact ⟨fun h => by cases h; rfl, fun h => by subst h; exact .nil⟩
    | cons c t ih =>
      intro ht
      obtain ⟨h1, h2, h3⟩ := ht c (by simp)
      constructor
      · intro hg
        cases hg with
        | star => exact absurd rfl h1
        | any => exact absurd rfl h2
        | lit _ _ s _ hg => rw [(ih s fun d hd => ht d (by simp [hd])).1 hg]
        | set => exact absurd rfl h3
        | unclosed => exact absurd rfl h3
      · rintro rfl
        exact .lit _ _ _ ⟨h1, h2, h3⟩ ((ih t fun d hd => ht d (by simp [hd])).2 rfl)
  rw [C61_fnmatch]
  constructor
  · intro hg
    cases hg with
    | star _ a b hg => rw [(hlit b suf h).1 hg]; exact ⟨a, rfl⟩
    | lit _ _ _ hc => exact absurd rfl hc.1
  · rintro ⟨a, rfl⟩
    exact .star suf a suf ((hlit suf suf h).2 rfl)

/-- `[a-c!]*.j?r` and a list with an empty pattern. -/
example : fnmatch "b/x.jar".toList "[a-c!]*.j?r".toList = true ∧
    fnmatch "d/x.jar".toList "[a-c!]*.j?r".toList = false ∧
    fnmatch "]".toList "[!]a-]".toList = false ∧ fnmatch "[x".toList "[x".toList = true ∧
    fnmatches "a.jar".toList [[], "*.class".toList, "*.jar".toList] = true ∧
    fnmatches [] [[]] = false := by decide +kernel

end Javatools
