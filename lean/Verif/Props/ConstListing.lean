import Verif.Proofs.Listing
import Verif.Props.ClassInfoCli
/-
C102: the listing of the constants pool.
-/
namespace Javatools

/-! ## Escapes -/

/-- The number a hexadecimal digit stands for. -/
def hexVal (c : Char) : Nat := if c.isDigit then c.toNat - 48 else c.toNat - 87

theorem hexVal_hexDigit : ∀ n < 16, hexVal (hexDigit n) = n := by decide +kernel

/-- The number some hexadecimal digits stand for. -/
def hexNum (s : Str) : Nat := s.foldl (fun a c => a * 16 + hexVal c) 0

theorem hexText_length (k n : Nat) : (hexText k n).length = k := by
  induction k generalizing n with
  | zero => rfl
  | succ k ih => simp [hexText, ih]

theorem hexNum_hexText (k n : Nat) (h : n < 16 ^ k) : hexNum (hexText k n) = n := by
  induction k generalizing n with
  | zero => simp [hexText, hexNum]; omega
  | succ k ih =>
    have h1 : n / 16 < 16 ^ k := by
      rw [Nat.pow_succ] at h
      exact Nat.div_lt_of_lt_mul (by omega)
    have h2 : hexNum (hexText k (n / 16) ++ [hexDigit (n % 16)]) =
        hexNum (hexText k (n / 16)) * 16 + hexVal (hexDigit (n % 16)) := by
      simp [hexNum]
    rw [hexText, h2, ih _ h1, hexVal_hexDigit _ (Nat.mod_lt _ (by decide))]
    omega

/-- Reads one character of `repr`. -/
def unescape : Str → Option (Char × Str)
  | [] => none
  | '\\' :: c :: r =>
    if c = 't' then some ('\t', r)
    else if c = 'n' then some ('\n', r)
    else if c = 'r' then some ('\r', r)
    else if c = 'x' then some (Char.ofNat (hexNum (r.take 2)), r.drop 2)
    else if c = 'u' then some (Char.ofNat (hexNum (r.take 4)), r.drop 4)
    else if c = 'U' then some (Char.ofNat (hexNum (r.take 8)), r.drop 8)
    else some (c, r)
  | c :: r => some (c, r)

theorem unescape_hex (k : Nat) (c : Char) (r : Str) (h : c.toNat < 16 ^ k) :
    Char.ofNat (hexNum ((hexText k c.toNat ++ r).take k)) = c ∧
      (hexText k c.toNat ++ r).drop k = r := by
  have hl := hexText_length k c.toNat
  rw [List.take_append_of_le_length (by omega), List.take_of_length_le (by omega),
    hexNum_hexText k _ h, Char.ofNat_toNat]
  refine ⟨rfl, ?_⟩
  rw [List.drop_append_of_le_length (by omega), List.drop_of_length_le (by omega)]
  rfl

theorem unescape_self {c : Char} (h : c ≠ '\\') (r : Str) : unescape (c :: r) = some (c, r) := by
  unfold unescape
  split
  · rename_i h1; simp at h1
  · rename_i h1; simp only [List.cons.injEq] at h1; exact absurd h1.1 h
  · rename_i h1; simp only [List.cons.injEq] at h1; rw [h1.1, h1.2]

theorem unescape_reprChar (p : Char → Bool) (q c : Char) (r : Str) (hq : q = '\'' ∨ q = '"') :
    unescape (reprChar p q c ++ r) = some (c, r) := by
  unfold reprChar
  split
  · rename_i h
    have hc : c = '\'' ∨ c = '"' ∨ c = '\\' := by
      rcases h with h | h
      · rcases hq with e | e
        · exact .inl (h.trans e)
        · exact .inr (.inl (h.trans e))
      · exact .inr (.inr h)
    rcases hc with rfl | rfl | rfl <;> rfl
  · rename_i h0
    have hb : c ≠ '\\' := fun e => h0 (.inr e)
    split
    · rename_i h; rw [h]; rfl
    · split
      · rename_i h; rw [h]; rfl
      · split
        · rename_i h; rw [h]; rfl
        · split
          · rename_i h
            obtain ⟨h1, h2⟩ := unescape_hex 2 c r (by omega)
            show some (Char.ofNat (hexNum ((hexText 2 c.toNat ++ r).take 2)),
              (hexText 2 c.toNat ++ r).drop 2) = _
            rw [h1, h2]
          · split
            · exact unescape_self hb r
            · split
              · exact unescape_self hb r
              · split
                · rename_i h
                  obtain ⟨h1, h2⟩ := unescape_hex 2 c r (by omega)
                  show some (Char.ofNat (hexNum ((hexText 2 c.toNat ++ r).take 2)),
                    (hexText 2 c.toNat ++ r).drop 2) = _
                  rw [h1, h2]
                · split
                  · rename_i h
                    obtain ⟨h1, h2⟩ := unescape_hex 4 c r (by omega)
                    show some (Char.ofNat (hexNum ((hexText 4 c.toNat ++ r).take 4)),
                      (hexText 4 c.toNat ++ r).drop 4) = _
                    rw [h1, h2]
                  · have hlt : c.toNat < 16 ^ 8 := by
                      have h1 : c.val.toNat < 55296 ∨ 57343 < c.val.toNat ∧ c.val.toNat < 1114112 :=
                        c.valid
                      have h2 : c.toNat = c.val.toNat := rfl
                      omega
                    obtain ⟨h1, h2⟩ := unescape_hex 8 c r hlt
                    show some (Char.ofNat (hexNum ((hexText 8 c.toNat ++ r).take 8)),
                      (hexText 8 c.toNat ++ r).drop 8) = _
                    rw [h1, h2]

theorem escape_prefix (p : Char → Bool) (q q' c c' : Char) (r r' : Str)
    (hq : q = '\'' ∨ q = '"') (hq' : q' = '\'' ∨ q' = '"')
    (h : reprChar p q c ++ r = reprChar p q' c' ++ r') : c = c' ∧ r = r' := by
  have h1 := unescape_reprChar p q c r hq
  rw [h, unescape_reprChar p q' c' r' hq'] at h1
  simp only [Option.some.injEq, Prod.mk.injEq] at h1
  exact ⟨h1.1.symm, h1.2.symm⟩

theorem reprChar_ne_nil (p : Char → Bool) (q c : Char) : reprChar p q c ≠ [] := by
  unfold reprChar
  repeat' split
  all_goals simp

/-- The text of a string constant determines the string. -/
theorem reprBody_injective (p : Char → Bool) {s t : Str} (h : reprBody p s = reprBody p t) :
    s = t := by
  have key : ∀ (q q' : Char), (q = '\'' ∨ q = '"') → (q' = '\'' ∨ q' = '"') → ∀ s t : Str,
      s.flatMap (reprChar p q) = t.flatMap (reprChar p q') → s = t := by
    intro q q' hq hq' s
    induction s with
    | nil =>
      intro t h
      cases t with
      | nil => rfl
      | cons c t =>
        rw [List.flatMap_nil, List.flatMap_cons] at h
        exact absurd (List.append_eq_nil_iff.1 h.symm).1 (reprChar_ne_nil _ _ _)
    | cons c s ih =>
      intro t h
      cases t with
      | nil =>
        rw [List.flatMap_nil, List.flatMap_cons] at h
        exact absurd (List.append_eq_nil_iff.1 h).1 (reprChar_ne_nil _ _ _)
      | cons d t =>
        rw [List.flatMap_cons, List.flatMap_cons] at h
        obtain ⟨h1, h2⟩ := escape_prefix p q q' c d _ _ hq hq' h
        rw [h1, ih t h2]
  unfold reprBody at h
  refine key _ _ ?_ ?_ s t h <;> (split <;> simp)

theorem hexDigit_ne : ∀ n < 16, hexDigit n ≠ '\n' := by decide +kernel

theorem hexText_no_newline (k n : Nat) : '\n' ∉ hexText k n := by
  induction k generalizing n with
  | zero => simp [hexText]
  | succ k ih =>
    simp only [hexText, List.mem_append, List.mem_singleton, not_or]
    exact ⟨ih _, fun e => hexDigit_ne _ (Nat.mod_lt _ (by decide)) e.symm⟩

theorem reprBody_no_newline (p : Char → Bool) (s : Str) : '\n' ∉ reprBody p s := by
  intro h
  unfold reprBody at h
  obtain ⟨c, _, hc⟩ := List.mem_flatMap.1 h
  have hx := hexText_no_newline
  have hq : ∀ q c : Char, (q = '\'' ∨ q = '"') → '\n' ∉ reprChar p q c := by
    intro q c hq
    unfold reprChar
    split
    · rename_i h
      have : c ≠ '\n' := by
        rintro rfl
        rcases h with h | h
        · rcases hq with e | e <;> rw [e] at h <;> exact absurd h (by decide)
        · exact absurd h (by decide)
      simp [this.symm]
    · split
      · decide
      · split
        · decide
        · rename_i hn
          have hn : '\n' ≠ c := fun e => hn e.symm
          repeat' split
          all_goals simp [hx, hn]
  exact hq _ c (by split <;> simp) hc

/-! ## Constants -/

/-- Constants that are shown in full: all but floating point numbers, which are rounded to six
decimals, and dynamic constants, which the tool does not know. -/
def Const.Exact : Const → Prop
  | .float _ | .double _ | .dynamic _ _ => False
  | _ => True

/-- The types of constants in the listing. -/
def kindNames : List Str :=
  ["Utf8", "int", "float", "long", "double", "class", "String", "Field", "Method", "InterfaceMethod",
    "NameAndType", "ModuleId", "MethodHandle", "MethodType", "InvokeDynamic", "Module", "Package"].map String.toList

/-- The place of the type of a constant in that list. -/
def constNo : Const → Nat
  | .utf8 _ => 0
  | .integer _ => 1
  | .float _ => 2
  | .long _ => 3
  | .double _ => 4
  | .cls _ => 5
  | .string _ => 6
  | .fieldref _ _ => 7
  | .methodref _ _ => 8
  | .ifaceMethodref _ _ => 9
  | .nameAndType _ _ => 10
  | .moduleId _ _ => 11
  | .methodHandle _ _ => 12
  | .methodType _ => 13
  | .invokeDynamic _ _ => 14
  | .module _ => 15
  | .package _ => 16
  | .dynamic _ _ => 17

/-- The type of a constant in the listing. -/
def constKind (c : Const) : Str := kindNames.getD (constNo c) []

theorem constNo_lt (c : Const) : constNo c < 18 := by cases c <;> simp [constNo]

theorem kindNames_distinct : ∀ i < 18, ∀ j < 18,
    kindNames.getD i [] = kindNames.getD j [] → i = j := by decide +kernel

theorem kindNames_plain : ∀ i < 18,
    '\t' ∉ kindNames.getD i [] ∧ '\n' ∉ kindNames.getD i [] := by decide +kernel

theorem constText_kind (E : PrintEnv) {c : Const} {t v : Str} (h : constText E c = .ok (t, v)) :
    t = constKind c := by
  cases c <;> simp only [constText, Except.ok.injEq, Prod.mk.injEq, reduceCtorEq] at h <;>
    exact h.1.symm

theorem constKind_plain (c : Const) : '\t' ∉ constKind c ∧ '\n' ∉ constKind c :=
  kindNames_plain _ (constNo_lt c)

theorem two_injective {x y : Char} {a b a' b' : Nat} {s s' : Str} (hx : x.isDigit = false)
    (hy : y.isDigit = false) (z : Str)
    (h : natText a ++ x :: (z ++ (natText b ++ y :: s)) =
      natText a' ++ x :: (z ++ (natText b' ++ y :: s'))) : a = a' ∧ b = b' := by
  obtain ⟨h1, h2⟩ := split_first (natText_not_mem _ hx) (natText_not_mem _ hx) h
  obtain ⟨h3, _⟩ := split_first (natText_not_mem _ hy) (natText_not_mem _ hy)
    (List.append_cancel_left h2)
  exact ⟨natText_inj h1, natText_inj h3⟩

theorem ref_injective {x : Char} {a b a' b' : Nat} (hx : x.isDigit = false)
    (h : natText a ++ x :: '#' :: natText b = natText a' ++ x :: '#' :: natText b') :
    a = a' ∧ b = b' := by
  obtain ⟨h1, h2⟩ := split_first (natText_not_mem _ hx) (natText_not_mem _ hx) h
  exact ⟨natText_inj h1, natText_inj (List.cons.inj h2).2⟩

/-- The text of a constant determines the constant. -/
theorem constText_injective (E : PrintEnv) {c d : Const} {p : Str × Str} (hc : c.Exact)
    (hd : d.Exact) (h : constText E c = .ok p) (h' : constText E d = .ok p) : c = d := by
  obtain ⟨t, v⟩ := p
  have hk : constKind c = constKind d :=
    (constText_kind E h).symm.trans (constText_kind E h')
  have hno := kindNames_distinct _ (constNo_lt c) _ (constNo_lt d) hk
  have e : constText E c = constText E d := h.trans h'.symm
  clear h h' hk
  cases c <;> cases d <;> try exact absurd hno (Nat.ne_of_beq_eq_false rfl)
  all_goals first
    | (exfalso; exact hc)
    | simp only [constText, Except.ok.injEq, Prod.mk.injEq, true_and] at e
  case utf8.utf8 => rw [reprBody_injective E.printable e]
  case integer.integer => rw [intText_inj e]
  case long.long => rw [intText_inj (List.append_cancel_right e)]
  case cls.cls => rw [natText_inj (List.cons.inj e).2]
  case string.string => rw [natText_inj (List.cons.inj e).2]
  case fieldref.fieldref a b a' b' =>
    have e1 := ref_injective (x := '.') (a := a) (b := b) (a' := a') (b' := b') (by decide)
      (by simpa using e)
    rw [e1.1, e1.2]
  case methodref.methodref a b a' b' =>
    have e1 := ref_injective (x := '.') (a := a) (b := b) (a' := a') (b' := b') (by decide)
      (by simpa using e)
    rw [e1.1, e1.2]
  case ifaceMethodref.ifaceMethodref a b a' b' =>
    have e1 := ref_injective (x := '.') (a := a) (b := b) (a' := a') (b' := b') (by decide)
      (by simpa using e)
    rw [e1.1, e1.2]
  case nameAndType.nameAndType a b a' b' =>
    have e1 := ref_injective (x := ':') (a := a) (b := b) (a' := a') (b' := b') (by decide)
      (by simpa using e)
    rw [e1.1, e1.2]
  case moduleId.moduleId a b a' b' =>
    have e1 := ref_injective (x := '@') (a := a) (b := b) (a' := a') (b' := b') (by decide)
      (by simpa using e)
    rw [e1.1, e1.2]
  case methodHandle.methodHandle a b a' b' =>
    have e1 := two_injective (x := ',') (y := ')') (z := [' ']) (s := []) (s' := []) (a := a)
      (b := b) (a' := a') (b' := b') (by decide) (by decide) (by simpa using e)
    rw [e1.1, e1.2]
  case invokeDynamic.invokeDynamic a b a' b' =>
    have e1 := two_injective (x := ',') (y := ')') (z := [' ']) (s := []) (s' := []) (a := a)
      (b := b) (a' := a') (b' := b') (by decide) (by decide) (by simpa using e)
    rw [e1.1, e1.2]
  case methodType.methodType => rw [natText_inj e]
  case module.module => rw [natText_inj e]
  case package.package => rw [natText_inj e]

theorem constText_no_newline (E : PrintEnv) {c : Const} {t v : Str} (hc : c.Exact)
    (h : constText E c = .ok (t, v)) : '\n' ∉ v := by
  have hn : ∀ n, '\n' ∉ natText n := fun n => natText_not_mem n (by decide)
  have hi : ∀ n, '\n' ∉ intText n := fun n => intText_not_mem n (by decide) (by decide)
  cases c <;> first
    | (exfalso; exact hc)
    | (simp only [constText, Except.ok.injEq, Prod.mk.injEq] at h
       obtain ⟨_, rfl⟩ := h
       first
        | exact reprBody_no_newline _ _
        | simp [hn, hi])

theorem constLine_injective {i j : Nat} {p q : Str × Str} (hp : '\t' ∉ p.1) (hq : '\t' ∉ q.1)
    (h : constLine i p = constLine j q) : i = j ∧ p = q := by
  unfold constLine at h
  simp only [List.append_assoc] at h
  have h1 := List.append_cancel_left h
  have h2 : natText i ++ ' ' :: ('=' :: ' ' :: (p.1 ++ '\t' :: (p.2 ++ [';']))) =
      natText j ++ ' ' :: ('=' :: ' ' :: (q.1 ++ '\t' :: (q.2 ++ [';']))) := by simpa using h1
  obtain ⟨h3, h4⟩ := split_first (natText_not_mem _ (by decide)) (natText_not_mem _ (by decide)) h2
  simp only [List.cons.injEq, true_and] at h4
  obtain ⟨h5, h6⟩ := split_first hp hq h4
  exact ⟨natText_inj h3, Prod.ext h5 (List.append_cancel_right h6)⟩

/-! ## C102 -/

/-- The constants of a pool with their indices. -/
def indexed : Nat → Pool → List (Nat × Const)
  | _, [] => []
  | i, none :: rest => indexed (i + 1) rest
  | i, some c :: rest => (i, c) :: indexed (i + 1) rest

theorem mem_indexed {i : Nat} {pool : Pool} {k : Nat} {c : Const} :
    (k, c) ∈ indexed i pool ↔ i ≤ k ∧ pool[k - i]? = some (some c) := by
  induction pool generalizing i with
  | nil => simp [indexed]
  | cons x pool ih =>
    cases x with
    | none =>
      simp only [indexed, ih]
      constructor
      · rintro ⟨h1, h2⟩
        refine ⟨by omega, ?_⟩
        rw [show k - i = (k - (i + 1)) + 1 by omega, List.getElem?_cons_succ]
        exact h2
      · rintro ⟨h1, h2⟩
        have : k ≠ i := by rintro rfl; simp at h2
        refine ⟨by omega, ?_⟩
        rw [show k - i = (k - (i + 1)) + 1 by omega, List.getElem?_cons_succ] at h2
        exact h2
    | some d =>
      simp only [indexed, List.mem_cons, ih, Prod.mk.injEq]
      constructor
      · rintro (⟨rfl, rfl⟩ | ⟨h1, h2⟩)
        · exact ⟨by omega, by simp⟩
        · refine ⟨by omega, ?_⟩
          rw [show k - i = (k - (i + 1)) + 1 by omega, List.getElem?_cons_succ]
          exact h2
      · rintro ⟨h1, h2⟩
        by_cases hk : k = i
        · subst hk; left; simp at h2; exact ⟨rfl, h2.symm⟩
        · right
          refine ⟨by omega, ?_⟩
          rw [show k - i = (k - (i + 1)) + 1 by omega, List.getElem?_cons_succ] at h2
          exact h2

theorem constLines_eq (E : PrintEnv) (i : Nat) (pool : Pool) (text : Const → Str × Str)
    (h : ∀ c, some c ∈ pool → constText E c = .ok (text c)) :
    constLines E i pool =
      (unlines ((indexed i pool).map fun p => constLine p.1 (text p.2)), none) := by
  induction pool generalizing i with
  | nil => rfl
  | cons x pool ih =>
    have ih' := fun k => ih k fun c hc => h c (by simp [hc])
    cases x with
    | none => simp [constLines, indexed, ih']
    | some c => simp [constLines, indexed, h c (by simp), ih']

/-- C102. The listing has a line for each constant, in the order of the pool, with its index, type
and value; nothing for the unused slots. -/
theorem C102_exact (E : PrintEnv) (pool : Pool) (text : Const → Str × Str)
    (h : ∀ c, some c ∈ pool.drop 1 → constText E c = .ok (text c)) :
    printPool E pool = ("  Constants pool:\n".toList ++
      unlines ((indexed 1 (pool.drop 1)).map fun p => constLine p.1 (text p.2)) ++ "\n".toList,
      none) := by
  unfold printPool
  rw [constLines_eq E 1 _ text h]
  simp

/-- The full claim: what is printed determines the constants. -/
def C102_full : Prop :=
  ∀ (E : PrintEnv) (pool pool' : Pool) (s : Str),
    printPool E (none :: pool) = (s, none) → printPool E (none :: pool') = (s, none) →
    indexed 1 pool = indexed 1 pool'

theorem constText_total (E : PrintEnv) {c : Const} (h : c.Exact) : ∃ p, constText E c = .ok p := by
  cases c <;> first
    | (exfalso; exact h)
    | exact ⟨_, rfl⟩

/-- C102. Without floating point numbers and dynamic constants the claim holds. -/
theorem C102_partial (E : PrintEnv) (pool pool' : Pool) (hp : ∀ c, some c ∈ pool → c.Exact)
    (hp' : ∀ c, some c ∈ pool' → c.Exact)
    (h : printPool E (none :: pool) = printPool E (none :: pool')) :
    indexed 1 pool = indexed 1 pool' := by
  let text : Const → Str × Str := fun c =>
    match constText E c with
    | .ok p => p
    | .error _ => ([], [])
  have ht : ∀ c : Const, c.Exact → constText E c = .ok (text c) := by
    intro c hc
    obtain ⟨p, h1⟩ := constText_total E hc
    simp only [text, h1]
  rw [C102_exact E (none :: pool) text fun c hc => ht c (hp c hc),
    C102_exact E (none :: pool') text fun c hc => ht c (hp' c hc)] at h
  simp only [List.drop_succ_cons, List.drop_zero] at h
  have h1 := List.append_cancel_left (List.append_cancel_right (Prod.mk.inj h).1)
  have mem : ∀ (pool : Pool), ∀ p ∈ indexed 1 pool, some p.2 ∈ pool := by
    intro pool p hp
    exact List.mem_of_getElem? (mem_indexed.1 hp).2
  have nl : ∀ (pool : Pool), (∀ c, some c ∈ pool → c.Exact) →
      ∀ l ∈ (indexed 1 pool).map fun p => constLine p.1 (text p.2), '\n' ∉ l := by
    intro pool hp l hl
    obtain ⟨p, hpm, rfl⟩ := List.mem_map.1 hl
    have hex := hp p.2 (mem pool p hpm)
    have hk := constText_kind E (c := p.2) (t := (text p.2).1) (v := (text p.2).2) (ht p.2 hex)
    have hv := constText_no_newline E (t := (text p.2).1) (v := (text p.2).2) hex (ht p.2 hex)
    have h1 := (constKind_plain p.2).2
    rw [← hk] at h1
    have h2 : '\n' ∉ natText p.1 := natText_not_mem _ (by decide)
    unfold constLine
    simp [h1, h2, hv]
  have h2 := unlines_injective (nl pool hp) (nl pool' hp') h1
  have hq : ∀ p ∈ indexed 1 pool, p.2.Exact := fun p h => hp _ (mem _ _ h)
  have hq' : ∀ p ∈ indexed 1 pool', p.2.Exact := fun p h => hp' _ (mem _ _ h)
  generalize indexed 1 pool = xs at h2 hq
  generalize indexed 1 pool' = ys at h2 hq'
  induction xs generalizing ys with
  | nil => cases ys with
    | nil => rfl
    | cons y ys => simp at h2
  | cons x xs ih => cases ys with
    | nil => simp at h2
    | cons y ys =>
      simp only [List.map_cons, List.cons.injEq] at h2
      have hx := hq x (by simp)
      have hy := hq' y (by simp)
      have tab : ∀ c : Const, c.Exact → '\t' ∉ (text c).1 := by
        intro c hc
        rw [constText_kind E (c := c) (t := (text c).1) (v := (text c).2) (ht c hc)]
        exact (constKind_plain c).1
      obtain ⟨h3, h4⟩ := constLine_injective (tab _ hx) (tab _ hy) h2.1
      have h5 := constText_injective E hx hy (ht _ hx) (by rw [h4]; exact ht _ hy)
      rw [ih (fun p hp => hq p (by simp [hp])) ys h2.2 (fun p hp => hq' p (by simp [hp])),
        Prod.ext h3 h5]

/-- C102. A dynamic constant ends the listing with an exception. -/
theorem C102_dynamic (E : PrintEnv) (pool rest : Pool) (a b : Nat)
    (h : ∀ c, some c ∈ pool → ∃ p, constText E c = .ok p) :
    (printPool E (none :: (pool ++ some (.dynamic a b) :: rest))).2 = some .unknownTag := by
  have key : ∀ (pool : Pool) (i : Nat), (∀ c, some c ∈ pool → ∃ p, constText E c = .ok p) →
      (constLines E i (pool ++ some (.dynamic a b) :: rest)).2 = some .unknownTag := by
    intro pool
    induction pool with
    | nil => intro i _; rfl
    | cons x pool ih =>
      intro i h
      have ih' := fun k => ih k fun c hc => h c (by simp [hc])
      cases x with
      | none => exact ih' (i + 1)
      | some c =>
        obtain ⟨p, hp⟩ := h c (by simp)
        simp only [List.cons_append, constLines, hp, withRes_ok, sayLine_eq, andThen_none]
        exact ih' (i + 1)
  have h1 := key pool 1 h
  unfold printPool
  simp only [List.drop_succ_cons, List.drop_zero, seqOut_cons, sayLine_eq, andThen_none]
  generalize constLines E 1 (pool ++ some (Const.dynamic a b) :: rest) = o at h1
  obtain ⟨t, e⟩ := o
  simp only at h1
  rw [h1]
  simp

/-- C102. The full claim is false: 2^-30 and 2^-31 are both shown as 0.000000. -/
theorem C102_full_fails : ¬ C102_full := by
  intro h
  have := h listEnv [some (.float 0x30800000)] [some (.float 0x30000000)]
    "  Constants pool:\nconst #1 = float\t0.000000f;\n\n".toList (by decide +kernel)
    (by decide +kernel)
  exact absurd this (by decide)

example : printPool listEnv [none, some (.utf8 "a'\t\n\\é".toList), some (.long (-7)), none,
      some (.methodref 1 2), some (.double 0x3ff8000000000000), some (.methodHandle 6 4)] =
    ("  Constants pool:\nconst #1 = Utf8\ta'\\t\\n\\\\é;\nconst #2 = long\t-7l;\nconst #4 = Method\t#1.#2;\nconst #5 = double\t1.500000d;\nconst #6 = MethodHandle\t(6, 4);\n\n".toList,
      none) := by decide +kernel

/-- `n` is `m * 2 ^ e` to the nearest integer, and the even one of two that are equally near. -/
def NearestEven (n m : Nat) (e : Int) : Prop :=
  (0 ≤ e → n = m * 2 ^ e.toNat) ∧
  (e < 0 → 2 * m ≤ 2 ^ (-e).toNat * (2 * n + 1) ∧ 2 ^ (-e).toNat * (2 * n) ≤ 2 * m + 2 ^ (-e).toNat ∧
    ((2 * m = 2 ^ (-e).toNat * (2 * n + 1) ∨ 2 ^ (-e).toNat * (2 * n) = 2 * m + 2 ^ (-e).toNat) →
      n % 2 = 0))

theorem roundHalfEven_nearest (x y : Nat) (hy : 0 < y) :
    2 * x ≤ y * (2 * roundHalfEven x y + 1) ∧ y * (2 * roundHalfEven x y) ≤ 2 * x + y ∧
    ((2 * x = y * (2 * roundHalfEven x y + 1) ∨ y * (2 * roundHalfEven x y) = 2 * x + y) →
      roundHalfEven x y % 2 = 0) := by
  have h1 := Nat.div_add_mod x y
  have h2 := Nat.mod_lt x hy
  have e1 : ∀ q, y * (2 * q + 1) = 2 * (y * q) + y := fun q => by grind
  have e2 : ∀ q, y * (2 * q) = 2 * (y * q) := fun q => by grind
  have e3 : ∀ q, y * (q + 1) = y * q + y := fun q => by grind
  unfold roundHalfEven
  generalize x / y = q at *
  generalize x % y = r at *
  simp only [e1, e2]
  split
  · generalize y * q = z at *; omega
  · split
    · simp only [e3]; generalize y * q = z at *; omega
    · split
      · generalize y * q = z at *; omega
      · simp only [e3]; generalize y * q = z at *; omega

/-- C102. A finite float is shown with six decimals, correctly rounded. -/
theorem C102_float (neg : Bool) (m : Nat) (e : Int) :
    ∃ n, NearestEven n (m * 10 ^ 6) e ∧
      floatText (.fin neg m e) = (if neg then ['-'] else []) ++ Nat.toDigits 10 (n / 10 ^ 6) ++ ['.'] ++
        (List.replicate (6 - (Nat.toDigits 10 (n % 10 ^ 6)).length) '0' ++
          Nat.toDigits 10 (n % 10 ^ 6)) := by
  refine ⟨_, ?_, by simp only [floatText, zeroPad, natText_eq]; rfl⟩
  constructor
  · intro h; rw [if_pos h]
  · intro h
    rw [if_neg (by omega)]
    exact roundHalfEven_nearest _ _ (Nat.two_pow_pos _)

/-- C102. The floats that are not finite have a name. -/
theorem C102_float_special : floatText .nan = "nan".toList ∧
    floatText (.inf true) = "-inf".toList ∧ floatText (.inf false) = "inf".toList :=
  ⟨rfl, rfl, rfl⟩

example : floatText (.fin true 7 (-1)) = "-3.500000".toList := by decide +kernel

end Javatools
