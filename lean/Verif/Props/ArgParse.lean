import Verif.Model.ArgParse
import Verif.Props.Template
import Verif.Props.Manifest
import Verif.Props.ClassIgnore
/-
C134-C138: the command lines of classdiff, jardiff, distdiff, classinfo, jarinfo and distinfo.
-/
namespace Javatools

/-! ### Command lines -/

/-- The option has this string. -/
def HasString (opts : List OptSpec) (o : OptSpec) (s : Str) : Prop := o ∈ opts ∧ s ∈ o.strings

/-- A word that cannot be taken for an option. -/
def PlainWord (v : Str) : Prop := v.head? ≠ some '-' ∨ v = "-".toList

/-- An abbreviation of a long option: a beginning of its string, and of no other's. -/
structure Abbrev (opts : List OptSpec) (p : Str) (o : OptSpec) (s : Str) : Prop where
  long : ∃ r, r ≠ [] ∧ p = '-' :: '-' :: r
  has : HasString opts o s
  start : p <+: s
  unique : ∀ o' s', HasString opts o' s' → p <+: s' → s' = s

/-- The ways to give an option, or several short ones in a word: what is given with its arguments, and
the words for it. -/
inductive Spells (opts : List OptSpec) : List (OptSpec × List Str) → List Str → Prop where
  | flag {o s} : HasString opts o s → o.takes = false → Spells opts [(o, [])] [s]
  | value {o s v} : HasString opts o s → o.takes = true → PlainWord v → Spells opts [(o, [v])] [s, v]
  | equals {o s v} : HasString opts o s → o.takes = true → v ≠ "--".toList →
      Spells opts [(o, [v])] [s ++ '=' :: v]
  | abbrevFlag {o s p} : Abbrev opts p o s → o.takes = false → Spells opts [(o, [])] [p]
  | abbrevValue {o s p v} : Abbrev opts p o s → o.takes = true → PlainWord v →
      Spells opts [(o, [v])] [p, v]
  | abbrevEquals {o s p v} : Abbrev opts p o s → o.takes = true → v ≠ "--".toList →
      Spells opts [(o, [v])] [p ++ '=' :: v]
  | cluster {fs : List (Char × OptSpec)} : 2 ≤ fs.length →
      (∀ x ∈ fs, HasString opts x.2 ['-', x.1] ∧ x.2.takes = false) →
      Spells opts (fs.map fun x => (x.2, [])) ['-' :: fs.map Prod.fst]
  | clusterValue {fs : List (Char × OptSpec)} {c o v} : fs ≠ [] →
      (∀ x ∈ fs, HasString opts x.2 ['-', x.1] ∧ x.2.takes = false) →
      HasString opts o ['-', c] → o.takes = true → PlainWord v →
      Spells opts (fs.map (fun x => (x.2, [])) ++ [(o, [v])]) ['-' :: (fs.map Prod.fst ++ [c]), v]
  | clusterAttached {fs : List (Char × OptSpec)} {c o v} :
      (∀ x ∈ fs, HasString opts x.2 ['-', x.1] ∧ x.2.takes = false) →
      HasString opts o ['-', c] → o.takes = true → v ≠ [] → v ≠ "--".toList →
      (fs = [] → v.head? ≠ some '=') →
      Spells opts (fs.map (fun x => (x.2, [])) ++ [(o, [v])]) ['-' :: (fs.map Prod.fst ++ c :: v)]

/-- An option that can be carried out: not `-h`, and a number where one is wanted. -/
def Sensible (isInt : Str → Bool) (a : OptSpec × List Str) : Prop :=
  a.1.kind ≠ .help ∧ (a.1.kind = .int → ∀ v ∈ a.2, isInt v = true)

/-- A part of a command line: options, or a file. -/
inductive ArgPiece where
  | options (given : List (OptSpec × List Str)) (words : List Str)
  | file (name : Str)

def ArgPiece.words : ArgPiece → List Str
  | .options _ ws => ws
  | .file f => [f]

def ArgPiece.given : ArgPiece → List (OptSpec × List Str)
  | .options g _ => g
  | .file _ => []

def ArgPiece.files : ArgPiece → List Str
  | .options _ _ => []
  | .file f => [f]

/-- The part is as it has to be. -/
def ArgPiece.Good (isInt : Str → Bool) (opts : List OptSpec) : ArgPiece → Prop
  | .options g ws => Spells opts g ws ∧ ∀ a ∈ g, Sensible isInt a
  | .file f => PlainWord f

/-! ### The tables -/

structure GoodOpts (opts : List OptSpec) : Prop where
  nodup : ((optionStrings opts).map Prod.fst).Nodup
  shape : ∀ o s, HasString opts o s → '=' ∉ s ∧
    ((∃ c, c ≠ '-' ∧ s = ['-', c]) ∨ ∃ r, r ≠ [] ∧ s = '-' :: '-' :: r)

/-- The same, to be computed. -/
def goodString (s : Str) : Bool :=
  !s.contains '=' && match s with
    | ['-', c] => c != '-'
    | '-' :: '-' :: _ :: _ => true
    | _ => false

theorem goodString_shape {s : Str} (h : goodString s = true) : '=' ∉ s ∧
    ((∃ c, c ≠ '-' ∧ s = ['-', c]) ∨ ∃ r, r ≠ [] ∧ s = '-' :: '-' :: r) := by
  unfold goodString at h
  rw [Bool.and_eq_true] at h
  refine ⟨by simpa using h.1, ?_⟩
  have h2 := h.2
  split at h2
  · rename_i c
    exact .inl ⟨c, by simpa using h2, rfl⟩
  · rename_i a r
    exact .inr ⟨a :: r, by simp, rfl⟩
  · simp at h2

theorem tool_good (t : Tool) : GoodOpts t.opts := by
  have h1 : ((optionStrings t.opts).map Prod.fst).Nodup := by
    cases t <;> decide +kernel
  have h2 : ∀ o ∈ t.opts, ∀ s ∈ o.strings, goodString s = true := by
    cases t <;> decide +kernel
  exact ⟨h1, fun o s h => goodString_shape (h2 o h.1 s h.2)⟩

section
variable {opts : List OptSpec}

theorem hasString_mem {o : OptSpec} {s : Str} : HasString opts o s ↔ (s, o) ∈ optionStrings opts := by
  unfold HasString optionStrings
  simp only [List.mem_flatMap, List.mem_map, Prod.mk.injEq]
  constructor
  · rintro ⟨h1, h2⟩
    exact ⟨o, h1, s, h2, rfl, rfl⟩
  · rintro ⟨o', h1, s', h2, rfl, rfl⟩
    exact ⟨h1, h2⟩

theorem lookup_has (hg : GoodOpts opts) {o : OptSpec} {s : Str} :
    lookupOption opts s = some o ↔ HasString opts o s := by
  rw [hasString_mem]
  exact ⟨PyDict.mem_of_get?, PyDict.get?_of_mem_nodup hg.nodup⟩

theorem lookup_none {s : Str} : lookupOption opts s = none ↔ ∀ o, ¬ HasString opts o s := by
  unfold lookupOption
  rw [PyDict.get?_eq_none_iff]
  simp only [hasString_mem]
  constructor
  · intro h o ho
    exact h (List.mem_map.2 ⟨_, ho, rfl⟩)
  · intro h hm
    obtain ⟨⟨s', o⟩, ho, rfl⟩ := List.mem_map.1 hm
    exact h o ho

/-! ### Words -/

theorem HasString.unique (hg : GoodOpts opts) {o o' : OptSpec} {s : Str} (h : HasString opts o s)
    (h' : HasString opts o' s) : o = o' := by
  have := (lookup_has hg).2 h
  rw [(lookup_has hg).2 h'] at this
  exact (Option.some.inj this).symm

/-- A word that begins with one dash and is longer than a short option is no option string. -/
theorem no_string (hg : GoodOpts opts) {c : Char} {r : Str} (hc : c ≠ '-') (hr : r ≠ []) (o : OptSpec) :
    ¬ HasString opts o ('-' :: c :: r) := by
  intro h
  rcases (hg.shape _ _ h).2 with ⟨d, -, e⟩ | ⟨r', -, e⟩
  · simp at e
    exact hr e.2
  · simp at e
    exact hc e.1

theorem short_char (hg : GoodOpts opts) {c : Char} {o : OptSpec} (h : HasString opts o ['-', c]) :
    c ≠ '-' ∧ c ≠ '=' := by
  obtain ⟨h1, h2⟩ := hg.shape _ _ h
  constructor
  · rintro rfl
    rcases h2 with ⟨c, hc, e⟩ | ⟨r, hr, e⟩
    · simp at e
      exact hc e.symm
    · simp at e
      exact hr e
  · rintro rfl
    simp at h1

theorem filterMap_unique {α β γ : Type} [DecidableEq α] {l : List (α × β)} {f : α × β → Option γ}
    (hn : (l.map Prod.fst).Nodup) {a : α} {b : β} {y : γ} (hm : (a, b) ∈ l) (hf : f (a, b) = some y)
    (ho : ∀ x ∈ l, x.1 ≠ a → f x = none) : l.filterMap f = [y] := by
  induction l with
  | nil => simp at hm
  | cons x l ih =>
    rw [List.map_cons, List.nodup_cons] at hn
    rcases List.mem_cons.1 hm with rfl | hm
    · rw [List.filterMap_cons_some hf]
      congr 1
      rw [List.filterMap_eq_nil_iff]
      intro x hx
      refine ho x (List.mem_cons_of_mem _ hx) fun e => hn.1 ?_
      exact List.mem_map.2 ⟨x, hx, e⟩
    · have hx : x.1 ≠ a := by
        rintro rfl
        exact hn.1 (List.mem_map.2 ⟨_, hm, rfl⟩)
      rw [List.filterMap_cons_none (ho x List.mem_cons_self hx)]
      exact ih hn.2 hm fun x hx => ho x (List.mem_cons_of_mem _ hx)

variable {negNum : Str → Bool}

theorem classify_exact (hg : GoodOpts opts) {o : OptSpec} {s : Str} (h : HasString opts o s) :
    classifyArg negNum opts s = .ok (.opt (some o) s none) := by
  unfold classifyArg
  rw [if_neg, (lookup_has hg).2 h]
  rcases (hg.shape _ _ h).2 with ⟨c, -, e⟩ | ⟨r, -, e⟩ <;> simp [e]

theorem classify_equals (hg : GoodOpts opts) {o : OptSpec} {s v : Str} (h : HasString opts o s) :
    classifyArg negNum opts (s ++ '=' :: v) = .ok (.opt (some o) s (some v)) := by
  have hs := hg.shape _ _ h
  have h1 : lookupOption opts (s ++ '=' :: v) = none := by
    rw [lookup_none]
    intro o' h'
    exact (hg.shape _ _ h').1 (by simp)
  have h2 : splitEq (s ++ '=' :: v) = some (s, v) := splitFirst_append hs.1
  unfold classifyArg
  rw [if_neg, h1, h2]
  · simp only [Option.bind_some, (lookup_has hg).2 h, Option.map_some]
    rw [if_neg]
    rcases hs.2 with ⟨c, -, e⟩ | ⟨r, -, e⟩ <;> simp [e]
  · rcases hs.2 with ⟨c, -, e⟩ | ⟨r, -, e⟩ <;> simp [e]

theorem classify_short (hg : GoodOpts opts) {o : OptSpec} {c : Char} {r : Str}
    (h : HasString opts o ['-', c]) (hr : r ≠ []) (he : r.head? ≠ some '=') :
    classifyArg negNum opts ('-' :: c :: r) = .ok (.opt (some o) ['-', c] (some r)) := by
  obtain ⟨hc, hc'⟩ := short_char hg h
  have h1 : lookupOption opts ('-' :: c :: r) = none := lookup_none.2 fun o' => no_string hg hc hr o'
  have h2 : ((splitEq ('-' :: c :: r)).bind fun x =>
      (lookupOption opts x.1).map fun o => (o, x)) = none := by
    cases hs : splitEq ('-' :: c :: r) with
    | none => rfl
    | some x =>
      obtain ⟨p, e⟩ := x
      have hp := (splitFirst_parts hs).1
      have hl : lookupOption opts p = none := by
        refine lookup_none.2 fun o' ho' => ?_
        match p, hp with
        | [], hp => simp at hp
        | [a], hp =>
          simp at hp
          exact hc' hp.2.1
        | [a, b], hp =>
          simp at hp
          rw [hp.2.2] at he
          simp at he
        | a :: b :: d :: p', hp =>
          simp at hp
          rw [← hp.1, ← hp.2.1] at ho'
          exact no_string hg hc (by simp) o' ho'
      simp [hl]
  have h3 : optionTuples opts ('-' :: c :: r) = [(o, ['-', c], some r)] := by
    unfold optionTuples
    split
    · rename_i heq
      simp at heq
      exact absurd heq.1 hc
    · refine filterMap_unique hg.nodup (hasString_mem.1 h) (by simp) ?_
      intro x hx hne
      have hx' : HasString opts x.2 x.1 := hasString_mem.2 hx
      have hpre : ('-' :: c :: r).isPrefixOf x.1 = false := by
        cases hb : ('-' :: c :: r).isPrefixOf x.1 with
        | false => rfl
        | true =>
          obtain ⟨t, ht⟩ := List.isPrefixOf_iff_prefix.1 hb
          rw [← ht] at hx'
          exact absurd hx' (no_string hg hc (by simp [hr]) _)
      have : x.1 ≠ ['-', c] := hne
      simp [this, hpre]
  unfold classifyArg
  simp [h1, h2, h3]

theorem classify_plain {v : Str} (hg : GoodOpts opts) (h : PlainWord v) :
    classifyArg negNum opts v = .ok (.arg v) ∧ v ≠ "--".toList := by
  rcases h with h | rfl
  · refine ⟨by unfold classifyArg; rw [if_pos h], ?_⟩
    rintro rfl
    simp at h
  · refine ⟨?_, by decide⟩
    have : lookupOption opts "-".toList = none := by
      refine lookup_none.2 fun o ho => ?_
      rcases (hg.shape _ _ ho).2 with ⟨c, -, e⟩ | ⟨r, -, e⟩ <;> simp at e
    unfold classifyArg
    rw [this]
    simp

/-- What `_get_option_tuples` finds for an abbreviation. -/
theorem tuples_abbrev (hg : GoodOpts opts) {o : OptSpec} {p s : Str} (h : Abbrev opts p o s) :
    (optionStrings opts).filter (fun x => p.isPrefixOf x.1) = [(s, o)] := by
  have := filterMap_unique (f := fun x : Str × OptSpec => if p.isPrefixOf x.1 then some x else none)
    hg.nodup (hasString_mem.1 h.has) (by simp [List.isPrefixOf_iff_prefix, h.start]) (y := (s, o)) ?_
  · rw [← this]
    generalize optionStrings opts = l
    induction l with
    | nil => rfl
    | cons x l ih =>
      rw [List.filter_cons, List.filterMap_cons, ih]
      cases p.isPrefixOf x.1 <;> rfl
  · intro x hx hne
    have : p.isPrefixOf x.1 = false := by
      cases hb : p.isPrefixOf x.1 with
      | false => rfl
      | true => exact absurd (h.unique _ _ (hasString_mem.2 hx) (List.isPrefixOf_iff_prefix.1 hb)) hne
    simp [this]

theorem Abbrev.noEq (hg : GoodOpts opts) {o : OptSpec} {p s : Str} (h : Abbrev opts p o s) : '=' ∉ p := by
  intro hm
  exact (hg.shape _ _ h.has).1 (h.start.subset hm)

theorem splitEq_none {p : Str} (h : '=' ∉ p) : splitEq p = none := splitFirst_none.2 h

theorem classify_abbrev (hg : GoodOpts opts) {o : OptSpec} {p s : Str} (h : Abbrev opts p o s) :
    classifyArg negNum opts p = .ok (.opt (some o) s none) ∧ p ≠ "--".toList := by
  obtain ⟨r, hr, hp⟩ := h.long
  refine ⟨?_, by rw [hp]; simpa using hr⟩
  by_cases he : p = s
  · rw [he]
    exact classify_exact hg h.has
  have h1 : lookupOption opts p = none := lookup_none.2 fun o' ho' =>
    he (h.unique _ _ ho' (List.prefix_refl _))
  have h2 := splitEq_none (h.noEq hg)
  have h3 : optionTuples opts p = [(o, s, none)] := by
    have := tuples_abbrev hg h
    unfold optionTuples
    rw [h2]
    rw [hp] at this ⊢
    simp only [this, List.map_cons, List.map_nil]
  unfold classifyArg
  rw [if_neg (by simp [hp]), h1, h2, h3]
  simp [hp]

theorem classify_abbrevEquals (hg : GoodOpts opts) {o : OptSpec} {p s v : Str} (h : Abbrev opts p o s) :
    classifyArg negNum opts (p ++ '=' :: v) = .ok (.opt (some o) s (some v)) := by
  obtain ⟨r, hr, hp⟩ := h.long
  by_cases he : p = s
  · rw [he]
    exact classify_equals hg h.has
  have h1 : lookupOption opts p = none := lookup_none.2 fun o' ho' =>
    he (h.unique _ _ ho' (List.prefix_refl _))
  have h1' : lookupOption opts (p ++ '=' :: v) = none := by
    rw [lookup_none]
    intro o' h'
    exact (hg.shape _ _ h').1 (by simp)
  have h2 : splitEq (p ++ '=' :: v) = some (p, v) := splitFirst_append (h.noEq hg)
  have h3 : optionTuples opts (p ++ '=' :: v) = [(o, s, some v)] := by
    have := tuples_abbrev hg h
    unfold optionTuples
    rw [h2]
    rw [hp] at this ⊢
    simp only [List.cons_append, this, List.map_cons, List.map_nil]
  unfold classifyArg
  rw [if_neg (by simp [hp]), h1', h2, h3]
  simp [hp, hp ▸ h1]

/-! ### Several short options in a word -/

theorem consume_cluster (hg : GoodOpts opts) : ∀ (fs : List (Char × OptSpec)) (o : OptSpec), fs ≠ [] →
    o.takes = false → (∀ x ∈ fs, HasString opts x.2 ['-', x.1] ∧ x.2.takes = false) →
    ∃ init last, o :: fs.map Prod.snd = init ++ [last] ∧
      consumeExplicit opts (fs.map Prod.fst) o true = .ok (init.map fun o => (o, []), some last)
  | [], _, h, _, _ => absurd rfl h
  | [x], o, _, ho, hx => by
    have hx := hx x (by simp)
    refine ⟨[o], x.2, rfl, ?_⟩
    simp [consumeExplicit, ho, (lookup_has hg).2 hx.1]
  | x :: y :: fs, o, _, ho, hx => by
    have h1 := hx x (by simp)
    obtain ⟨init, last, e, h2⟩ := consume_cluster hg (y :: fs) x.2 (by simp) h1.2
      fun z hz => hx z (List.mem_cons_of_mem _ hz)
    refine ⟨o :: init, last, by rw [List.map_cons, e]; rfl, ?_⟩
    rw [List.map_cons, consumeExplicit, (lookup_has hg).2 h1.1]
    simp only [ho, Bool.false_eq_true, if_false, Bool.not_true, h2]
    rfl

/-- Short options without an argument, and one with an argument at the end of the word. -/
theorem consume_clusterLast (hg : GoodOpts opts) {c : Char} {o' : OptSpec}
    (ho' : HasString opts o' ['-', c]) : ∀ (fs : List (Char × OptSpec)) (o : OptSpec),
    o.takes = false → (∀ x ∈ fs, HasString opts x.2 ['-', x.1] ∧ x.2.takes = false) →
    consumeExplicit opts (fs.map Prod.fst ++ [c]) o true =
      .ok ((o :: fs.map Prod.snd).map fun o => (o, []), some o')
  | [], o, ho, hx => by
    simp [consumeExplicit, ho, (lookup_has hg).2 ho']
  | x :: fs, o, ho, hx => by
    have h1 := hx x (by simp)
    have h2 := consume_clusterLast hg ho' fs x.2 h1.2 fun z hz => hx z (List.mem_cons_of_mem _ hz)
    rw [List.map_cons, List.cons_append, consumeExplicit, (lookup_has hg).2 h1.1]
    simp [ho, h2]

theorem consume_clusterAttached (hg : GoodOpts opts) {c : Char} {o' : OptSpec} {v : Str}
    (ho' : HasString opts o' ['-', c]) (ht : o'.takes = true) (hv : v ≠ []) (hd : v ≠ "--".toList) :
    ∀ (fs : List (Char × OptSpec)) (o : OptSpec),
    o.takes = false → (∀ x ∈ fs, HasString opts x.2 ['-', x.1] ∧ x.2.takes = false) →
    consumeExplicit opts (fs.map Prod.fst ++ c :: v) o true =
      .ok ((o :: fs.map Prod.snd).map (fun o => (o, [])) ++ [(o', [v])], none)
  | [], o, ho, hx => by
    obtain ⟨a, v', rfl⟩ : ∃ a v', v = a :: v' := by
      cases v with
      | nil => exact absurd rfl hv
      | cons a v' => exact ⟨a, v', rfl⟩
    rw [List.map_nil, List.nil_append, consumeExplicit, (lookup_has hg).2 ho']
    simp [ho, consumeExplicit, ht, optValues]
    simpa using hd
  | x :: fs, o, ho, hx => by
    have h1 := hx x (by simp)
    have h2 := consume_clusterAttached hg ho' ht hv hd fs x.2 h1.2 fun z hz => hx z (List.mem_cons_of_mem _ hz)
    rw [List.map_cons, List.cons_append, consumeExplicit, (lookup_has hg).2 h1.1]
    simp [ho, h2]

/-! ### The words of an option -/

variable {isInt : Str → Bool}

variable {nargs : Nargs}

/-- The words of options, classified: they are carried out one after the other, behind the files that
come before them, and the rest is as it would be without them. -/
structure WordsAre (negNum isInt : Str → Bool) (opts : List OptSpec) (nargs : Nargs)
    (acts : List (OptSpec × List Str)) (ws : List Str) (toks : List Tok) : Prop where
  classified : ∀ rest, classify negNum opts (ws ++ rest) = (classify negNum opts rest).map (toks ++ ·)
  parsed : ∀ ts pending extras run, parseLoop isInt opts nargs pending extras run (toks ++ ts) =
    (takeActions isInt acts).bind fun evs =>
      (parseLoop isInt opts nargs (settle nargs pending extras run).pending
        (settle nargs pending extras run).extras [] ts).map
        ((settle nargs pending extras run).events ++ evs ++ ·)

theorem classify_one {w : Str} {t : Tok} (h : classifyArg negNum opts w = .ok t) (hw : w ≠ "--".toList)
    (rest : List Str) :
    classify negNum opts (w :: rest) = (classify negNum opts rest).map (t :: ·) := by
  rw [classify, if_neg hw, h]
  cases classify negNum opts rest <;> rfl

theorem wordsAre_flag {o : OptSpec} {w s : Str} (hc : classifyArg negNum opts w = .ok (.opt (some o) s none))
    (hw : w ≠ "--".toList) (ht : o.takes = false) :
    WordsAre negNum isInt opts nargs [(o, [])] [w] [.opt (some o) s none] := by
  refine ⟨fun rest => classify_one hc hw rest, fun ts pending extras run => ?_⟩
  simp only [List.cons_append, List.nil_append, parseLoop, consumeWord, ht, Bool.false_eq_true,
    if_false]
  cases takeActions isInt [(o, [])] <;> rfl

theorem wordsAre_explicit {o : OptSpec} {w s e : Str} {acts : List (OptSpec × List Str)}
    (hc : classifyArg negNum opts w = .ok (.opt (some o) s (some e))) (hw : w ≠ "--".toList)
    (hk : consumeExplicit opts e o (decide (s[1]? ≠ some '-')) = .ok (acts, none)) :
    WordsAre negNum isInt opts nargs acts [w] [.opt (some o) s (some e)] := by
  refine ⟨fun rest => classify_one hc hw rest, fun ts pending extras run => ?_⟩
  simp only [List.cons_append, List.nil_append, parseLoop, consumeWord, hk]
  cases takeActions isInt acts <;> rfl

theorem wordsAre_clusterFlag {o o' : OptSpec} {w s e : Str} {acts : List (OptSpec × List Str)}
    (hc : classifyArg negNum opts w = .ok (.opt (some o) s (some e))) (hw : w ≠ "--".toList)
    (hk : consumeExplicit opts e o (decide (s[1]? ≠ some '-')) = .ok (acts, some o'))
    (ht : o'.takes = false) :
    WordsAre negNum isInt opts nargs (acts ++ [(o', [])]) [w] [.opt (some o) s (some e)] := by
  refine ⟨fun rest => classify_one hc hw rest, fun ts pending extras run => ?_⟩
  simp only [List.cons_append, List.nil_append, parseLoop, consumeWord, hk, ht, Bool.false_eq_true,
    if_false]
  cases takeActions isInt (acts ++ [(o', [])]) <;> rfl

theorem wordsAre_value (hg : GoodOpts opts) {o o' : OptSpec} {w s v : Str} {e : Option Str}
    {acts : List (OptSpec × List Str)}
    (hc : classifyArg negNum opts w = .ok (.opt (some o) s e)) (hw : w ≠ "--".toList)
    (hk : consumeWord opts o s e = .ok (acts, some o'))
    (ht : o'.takes = true) (hv : PlainWord v) :
    WordsAre negNum isInt opts nargs (acts ++ [(o', [v])]) [w, v] [.opt (some o) s e, .arg v] := by
  obtain ⟨h1, h2⟩ := classify_plain (negNum := negNum) hg hv
  refine ⟨fun rest => ?_, fun ts pending extras run => ?_⟩
  · rw [List.cons_append, classify_one hc hw, List.cons_append, List.nil_append, classify_one h1 h2]
    cases classify negNum opts rest <;> rfl
  · simp only [List.cons_append, List.nil_append, parseLoop, hk, ht, if_true]
    cases takeActions isInt (acts ++ [(o', [v])]) <;> rfl

theorem HasString.notDashes (hg : GoodOpts opts) {o : OptSpec} {s : Str} (h : HasString opts o s) :
    s ≠ "--".toList := by
  rintro rfl
  rcases (hg.shape _ _ h).2 with ⟨c, hc, e⟩ | ⟨r, hr, e⟩
  · simp at e
    exact hc e.symm
  · simp at e
    exact hr e

theorem equals_notDashes {s v : Str} : s ++ '=' :: v ≠ "--".toList := by
  intro e
  have : '=' ∈ "--".toList := by
    rw [← e]
    simp
  simp at this

theorem optValues_of {v : Str} (h : v ≠ "--".toList) : optValues v = [v] := by
  unfold optValues
  rw [if_neg h]

theorem consume_takes {o : OptSpec} {e : Str} {b : Bool} (h : o.takes = true) :
    consumeExplicit opts e o b = .ok ([(o, optValues e)], none) := by
  cases e <;> simp [consumeExplicit, h]

theorem Spells.wordsAre (hg : GoodOpts opts) {acts : List (OptSpec × List Str)} {ws : List Str}
    (h : Spells opts acts ws) : ∃ toks, WordsAre negNum isInt opts nargs acts ws toks := by
  cases h with
  | flag h ht => exact ⟨_, wordsAre_flag (classify_exact hg h) (h.notDashes hg) ht⟩
  | value h ht hv =>
    exact ⟨_, wordsAre_value hg (acts := []) (classify_exact hg h) (h.notDashes hg) rfl ht hv⟩
  | equals h ht hv =>
    exact ⟨_, wordsAre_explicit (classify_equals hg h) equals_notDashes
      (by rw [consume_takes ht, optValues_of hv])⟩
  | abbrevFlag h ht =>
    obtain ⟨h1, h2⟩ := classify_abbrev (negNum := negNum) hg h
    exact ⟨_, wordsAre_flag h1 h2 ht⟩
  | abbrevValue h ht hv =>
    obtain ⟨h1, h2⟩ := classify_abbrev (negNum := negNum) hg h
    exact ⟨_, wordsAre_value hg (acts := []) h1 h2 rfl ht hv⟩
  | abbrevEquals h ht hv =>
    exact ⟨_, wordsAre_explicit (classify_abbrevEquals hg h) equals_notDashes
      (by rw [consume_takes ht, optValues_of hv])⟩
  | @cluster fs hl hx =>
    match fs, hl, hx with
    | x :: y :: fs, hl, hx =>
      have h1 := hx x (by simp)
      have h2 := hx y (by simp)
      have hc := (short_char hg h1.1).1
      obtain ⟨init, last, e, hk⟩ := consume_cluster hg (y :: fs) x.2 (by simp) h1.2
        fun z hz => hx z (List.mem_cons_of_mem _ hz)
      have hl : last.takes = false := by
        have : last ∈ x.2 :: (y :: fs).map Prod.snd := by
          rw [e]
          simp
        rw [← List.map_cons (f := Prod.snd)] at this
        obtain ⟨z, hz, rfl⟩ := List.mem_map.1 this
        exact (hx z hz).2
      have hcl : classifyArg negNum opts ('-' :: x.1 :: (y :: fs).map Prod.fst) =
          .ok (.opt (some x.2) ['-', x.1] (some ((y :: fs).map Prod.fst))) := by
        refine classify_short hg h1.1 (by simp) ?_
        have := (short_char hg h2.1).2
        simpa using this
      have := wordsAre_clusterFlag (isInt := isInt) (nargs := nargs) hcl (by simp [hc]) (by simpa [hc] using hk) hl
      have hacts : (x :: y :: fs).map (fun x => (x.2, ([] : List Str))) =
          init.map (fun o => (o, [])) ++ [(last, [])] := by
        have e' := congrArg (List.map fun o : OptSpec => (o, ([] : List Str))) e
        rw [List.map_append] at e'
        refine Eq.trans ?_ e'
        simp
      rw [hacts]
      exact ⟨_, this⟩
  | @clusterValue fs c o v hf hx ho ht hv =>
    match fs, hf, hx with
    | x :: fs, hf, hx =>
      have h1 := hx x (by simp)
      have hc := (short_char hg h1.1).1
      have hx' : ∀ z ∈ fs, HasString opts z.2 ['-', z.1] ∧ z.2.takes = false := fun z hz =>
        hx z (List.mem_cons_of_mem _ hz)
      have hk := consume_clusterLast hg ho fs x.2 h1.2 hx'
      have hcl : classifyArg negNum opts ('-' :: x.1 :: (fs.map Prod.fst ++ [c])) =
          .ok (.opt (some x.2) ['-', x.1] (some (fs.map Prod.fst ++ [c]))) := by
        refine classify_short hg h1.1 (by simp) ?_
        cases fs with
        | nil =>
          have := (short_char hg ho).2
          simpa using this
        | cons y fs =>
          have := (short_char hg (hx' y (by simp)).1).2
          simpa using this
      have := wordsAre_value (isInt := isInt) (nargs := nargs) hg hcl (by simp [hc])
        (by rw [consumeWord]; simpa [hc] using hk) ht hv
      exact ⟨_, this⟩
  | @clusterAttached fs c o v hx ho ht hv hd he =>
    match fs, hx, he with
    | [], hx, he =>
      have hc := (short_char hg ho).1
      have hcl := classify_short (negNum := negNum) hg ho hv (he rfl)
      exact ⟨_, wordsAre_explicit hcl (by simp [hc]) (by rw [consume_takes ht, optValues_of hd]; rfl)⟩
    | x :: fs, hx, he =>
      have h1 := hx x (by simp)
      have hc := (short_char hg h1.1).1
      have hx' : ∀ z ∈ fs, HasString opts z.2 ['-', z.1] ∧ z.2.takes = false := fun z hz =>
        hx z (List.mem_cons_of_mem _ hz)
      have hk := consume_clusterAttached hg ho ht hv hd fs x.2 h1.2 hx'
      have hcl : classifyArg negNum opts ('-' :: x.1 :: (fs.map Prod.fst ++ c :: v)) =
          .ok (.opt (some x.2) ['-', x.1] (some (fs.map Prod.fst ++ c :: v))) := by
        refine classify_short hg h1.1 (by simp) ?_
        cases fs with
        | nil =>
          have := (short_char hg ho).2
          simpa using this
        | cons y fs =>
          have := (short_char hg (hx' y (by simp)).1).2
          simpa using this
      have := wordsAre_explicit (isInt := isInt) (nargs := nargs) hcl (by simp [hc]) (by simpa [hc] using hk)
      exact ⟨_, this⟩

/-! ### Command lines of options and files -/

/-- The actions for what is given. -/
def givenEvents (g : List (OptSpec × List Str)) : List ArgEvent := g.map fun a => .opt a.1 a.2

theorem takeActions_sensible {g : List (OptSpec × List Str)} (h : ∀ a ∈ g, Sensible isInt a) :
    takeActions isInt g = .ok (givenEvents g) := by
  induction g with
  | nil => rfl
  | cons a g ih =>
    obtain ⟨o, args⟩ := a
    obtain ⟨h1, h2⟩ := h (o, args) (by simp)
    have : takeAction isInt o args = .ok (.opt o args) := by
      unfold takeAction
      cases hk : o.kind with
      | help => exact absurd hk h1
      | flag => rfl
      | value => rfl
      | int =>
        have := h2 hk
        simpa using this
    rw [takeActions, this, ih fun a ha => h a (List.mem_cons_of_mem _ ha)]
    rfl

/-- The parts of a command line and their classification. -/
inductive PiecesToks (negNum isInt : Str → Bool) (opts : List OptSpec) (nargs : Nargs) :
    List ArgPiece → List Tok → Prop where
  | nil : PiecesToks negNum isInt opts nargs [] []
  | options {g ws ts ps rt} : WordsAre negNum isInt opts nargs g ws ts → (∀ a ∈ g, Sensible isInt a) →
      PiecesToks negNum isInt opts nargs ps rt →
      PiecesToks negNum isInt opts nargs (.options g ws :: ps) (ts ++ rt)
  | file {f ps rt} : PiecesToks negNum isInt opts nargs ps rt →
      PiecesToks negNum isInt opts nargs (.file f :: ps) (.arg f :: rt)

def piecesWords (ps : List ArgPiece) : List Str := ps.flatMap ArgPiece.words

def piecesGiven (ps : List ArgPiece) : List (OptSpec × List Str) := ps.flatMap ArgPiece.given

def piecesFiles (ps : List ArgPiece) : List Str := ps.flatMap ArgPiece.files

theorem pieces_toks (nargs : Nargs) (hg : GoodOpts opts) {ps : List ArgPiece}
    (h : ∀ p ∈ ps, p.Good isInt opts) :
    ∃ toks, PiecesToks negNum isInt opts nargs ps toks ∧
      ∀ rest, classify negNum opts (piecesWords ps ++ rest) =
        (classify negNum opts rest).map (toks ++ ·) := by
  induction ps with
  | nil =>
    refine ⟨[], .nil, fun rest => ?_⟩
    rw [piecesWords, List.flatMap_nil, List.nil_append]
    cases classify negNum opts rest <;> rfl
  | cons p ps ih =>
    obtain ⟨toks, h1, h2⟩ := ih fun p hp => h p (List.mem_cons_of_mem _ hp)
    have hp := h p List.mem_cons_self
    cases p with
    | options g ws =>
      obtain ⟨ts, ht⟩ := hp.1.wordsAre (negNum := negNum) (isInt := isInt) (nargs := nargs) hg
      refine ⟨_, .options ht hp.2 h1, fun rest => ?_⟩
      have e : piecesWords (.options g ws :: ps) ++ rest = ws ++ (piecesWords ps ++ rest) := by
        simp [piecesWords, ArgPiece.words]
      rw [e, ht.classified, h2]
      cases classify negNum opts rest <;> simp [Except.map]
    | file f =>
      obtain ⟨h3, h4⟩ := classify_plain (negNum := negNum) hg hp
      refine ⟨_, .file h1, fun rest => ?_⟩
      have e : piecesWords (.file f :: ps) ++ rest = f :: (piecesWords ps ++ rest) := by
        simp [piecesWords, ArgPiece.words]
      rw [e, classify_one h3 h4, h2]
      cases classify negNum opts rest <;> simp [Except.map]

theorem settle_nil (pending extras : Bool) : settle nargs pending extras [] = ⟨[], pending, extras⟩ := rfl

/-- How a command line of options ends. -/
def finish (st : Settled) (evs : List ArgEvent) : Res (List ArgEvent) :=
  if st.pending || st.extras then .error usageError else .ok (st.events ++ evs)

theorem take_nil : nargs.take [] = none := by cases nargs <;> rfl

theorem tail_finish (pending extras : Bool) (run : List Str) :
    parseTail nargs pending extras run [] = finish (settle nargs pending extras run) [] := by
  unfold parseTail settle finish
  cases run with
  | nil => cases pending <;> cases extras <;> simp [take_nil]
  | cons a run =>
    cases pending with
    | false => simp
    | true =>
      simp only [if_true, List.filterMap_nil, List.append_nil, List.isEmpty_cons, Bool.false_eq_true, if_false]
      cases nargs.take (a :: run) with
      | none => simp
      | some x => simp

theorem PiecesToks.options_parsed {ps : List ArgPiece} {toks : List Tok}
    (h : PiecesToks negNum isInt opts nargs ps toks) (hf : piecesFiles ps = []) (ts : List Tok)
    (pending extras : Bool) :
    parseLoop isInt opts nargs pending extras [] (toks ++ ts) =
      (parseLoop isInt opts nargs pending extras [] ts).map (givenEvents (piecesGiven ps) ++ ·) := by
  induction h with
  | nil =>
    rw [List.nil_append]
    cases parseLoop isInt opts nargs pending extras [] ts <;> rfl
  | @options g ws ts' ps rt hw hs _ ih =>
    have hf' : piecesFiles ps = [] := by simpa [piecesFiles, ArgPiece.files] using hf
    rw [List.append_assoc, hw.parsed, takeActions_sensible hs, settle_nil]
    simp only [Except.bind]
    rw [ih hf']
    cases parseLoop isInt opts nargs pending extras [] ts <;>
      simp [Except.map, piecesGiven, ArgPiece.given, givenEvents]
  | file _ _ => simp [piecesFiles, ArgPiece.files] at hf

theorem PiecesToks.options_finish {ps : List ArgPiece} {toks : List Tok}
    (h : PiecesToks negNum isInt opts nargs ps toks) (hf : piecesFiles ps = []) (pending extras : Bool)
    (run : List Str) :
    parseLoop isInt opts nargs pending extras run toks =
      finish (settle nargs pending extras run) (givenEvents (piecesGiven ps)) := by
  induction h generalizing pending extras run with
  | nil => rw [parseLoop, tail_finish]; · rfl
           all_goals simp
  | @options g ws ts' ps rt hw hs _ ih =>
    have hf' : piecesFiles ps = [] := by simpa [piecesFiles, ArgPiece.files] using hf
    rw [hw.parsed, takeActions_sensible hs]
    simp only [Except.bind]
    rw [ih hf', settle_nil]
    unfold finish
    simp only
    split
    · rfl
    · simp [Except.map, piecesGiven, ArgPiece.given, givenEvents]
  | file _ _ => simp [piecesFiles, ArgPiece.files] at hf

theorem loop_args (fs : List Str) (ts : List Tok) (pending extras : Bool) (run : List Str) :
    parseLoop isInt opts nargs pending extras run (fs.map .arg ++ ts) =
      parseLoop isInt opts nargs pending extras (run ++ fs) ts := by
  induction fs generalizing run with
  | nil => simp
  | cons f fs ih =>
    rw [List.map_cons, List.cons_append, parseLoop, ih]
    simp

theorem settle_extras (pending : Bool) (run : List Str) : (settle nargs pending true run).extras = true := by
  unfold settle
  repeat' split
  all_goals simp

/-- Something is not recognised. -/
theorem PiecesToks.extras_refused {ps : List ArgPiece} {toks : List Tok}
    (h : PiecesToks negNum isInt opts nargs ps toks) (pending : Bool) (run : List Str) :
    parseLoop isInt opts nargs pending true run toks = .error usageError := by
  induction h generalizing pending run with
  | nil =>
    have := settle_extras (nargs := nargs) pending run
    rw [parseLoop, tail_finish]
    · unfold finish
      simp [this]
    all_goals simp
  | options hw hs h ih =>
    rw [hw.parsed, takeActions_sensible hs, settle_extras, Except.bind, ih]
    rfl
  | file h ih =>
    rw [parseLoop]
    exact ih ..

/-- Files behind the files. -/
theorem PiecesToks.more_refused {ps : List ArgPiece} {toks : List Tok}
    (h : PiecesToks negNum isInt opts nargs ps toks) (extras : Bool) (run : List Str)
    (hf : run ≠ [] ∨ piecesFiles ps ≠ []) :
    parseLoop isInt opts nargs false extras run toks = .error usageError := by
  induction h generalizing extras run with
  | nil =>
    rcases hf with hf | hf
    · rw [parseLoop, tail_finish]
      · unfold finish settle
        cases run with
        | nil => exact absurd rfl hf
        | cons a run => simp
      all_goals simp
    · simp [piecesFiles] at hf
  | options hw hs h ih =>
    rw [hw.parsed, takeActions_sensible hs]
    cases run with
    | nil =>
      rw [settle_nil, Except.bind, ih _ _ (.inr (by simpa [piecesFiles, ArgPiece.files] using hf))]
      rfl
    | cons a run =>
      have : settle nargs false extras (a :: run) = ⟨[], false, true⟩ := rfl
      rw [this, Except.bind, h.extras_refused]
      rfl
  | file h ih =>
    rw [parseLoop]
    exact ih _ _ (.inl (by simp))

/-- How many files there may be. -/
def Nargs.Accepts : Nargs → Nat → Prop
  | .one, n => n = 1
  | .two, n => n = 2
  | .plus, n => 1 ≤ n

theorem take_split {l fs rest : List Str} (h : nargs.take l = some (fs, rest)) :
    l = fs ++ rest ∧ nargs.Accepts fs.length := by
  unfold Nargs.take at h
  split at h <;> simp at h
  all_goals
    obtain ⟨rfl, rfl⟩ := h
    simp [Nargs.Accepts]

theorem take_accepts {l : List Str} : nargs.take l = some (l, []) ↔ nargs.Accepts l.length := by
  constructor
  · intro h
    exact (take_split h).2
  · intro h
    cases nargs with
    | one =>
      match l, h with
      | [a], _ => rfl
    | two =>
      match l, h with
      | [a, b], _ => rfl
    | plus =>
      match l, h with
      | a :: l, _ => rfl
      | [], h => simp [Nargs.Accepts] at h

theorem accepts_ne {l : List Str} (h : nargs.Accepts l.length) : l ≠ [] := by
  rintro rfl
  cases nargs <;> simp [Nargs.Accepts] at h

theorem settle_accepts {fs : List Str} (h : nargs.Accepts fs.length) :
    settle nargs true false fs = ⟨[.files fs], false, false⟩ := by
  unfold settle
  rw [take_accepts.2 h]
  simp [accepts_ne h]

/-- Otherwise something is missing or left. -/
theorem settle_rejects {fs : List Str} (hn : fs ≠ []) (h : ¬ nargs.Accepts fs.length) :
    (settle nargs true false fs).extras = true := by
  unfold settle
  cases ht : nargs.take fs with
  | none => simp [hn]
  | some x =>
    obtain ⟨gs, rest⟩ := x
    obtain ⟨h1, h2⟩ := take_split ht
    have : rest ≠ [] := by
      rintro rfl
      rw [List.append_nil] at h1
      rw [← h1] at h2
      exact h h2
    simp [hn, this]

/-- The files, as many as there may be, come one after the other, and options before and behind them. -/
def OneRun (nargs : Nargs) (ps : List ArgPiece) : Prop :=
  ∃ (before : List ArgPiece) (fs : List Str) (after : List ArgPiece),
    ps = before ++ fs.map .file ++ after ∧ piecesFiles before = [] ∧ piecesFiles after = [] ∧ nargs.Accepts fs.length

theorem PiecesToks.run_refused {ps : List ArgPiece} {toks : List Tok}
    (h : PiecesToks negNum isInt opts nargs ps toks) (run : List Str) (hr : run ≠ [])
    (hf : ¬ ∃ fs after, ps = fs.map .file ++ after ∧ piecesFiles after = [] ∧
      nargs.Accepts (run ++ fs).length) :
    parseLoop isInt opts nargs true false run toks = .error usageError := by
  induction h generalizing run with
  | nil =>
    have : ¬ nargs.Accepts run.length := fun ha => hf ⟨[], [], rfl, rfl, by simpa using ha⟩
    rw [parseLoop, tail_finish]
    · unfold finish
      simp [settle_rejects hr this]
    all_goals simp
  | @options g ws ts ps rt hw hs h ih =>
    rw [hw.parsed, takeActions_sensible hs, Except.bind]
    by_cases ha : nargs.Accepts run.length
    · rw [settle_accepts ha, h.more_refused]
      · rfl
      · refine .inr fun e => hf ⟨[], .options g ws :: ps, rfl, ?_, by simpa using ha⟩
        simpa [piecesFiles, ArgPiece.files] using e
    · rw [settle_rejects hr ha, h.extras_refused]
      rfl
  | @file f ps rt h ih =>
    rw [parseLoop]
    refine ih _ (by simp) ?_
    rintro ⟨fs, after, e, h1, h2⟩
    exact hf ⟨f :: fs, after, by rw [e]; rfl, h1, by simpa using h2⟩

theorem PiecesToks.refused {ps : List ArgPiece} {toks : List Tok}
    (h : PiecesToks negNum isInt opts nargs ps toks) (hf : ¬ OneRun nargs ps) :
    parseLoop isInt opts nargs true false [] toks = .error usageError := by
  induction h with
  | nil =>
    rw [parseLoop, tail_finish]
    · rfl
    all_goals simp
  | @options g ws ts ps rt hw hs h ih =>
    have : ¬ OneRun nargs ps := by
      rintro ⟨before, fs, after, e, h1, h2, h3⟩
      refine hf ⟨.options g ws :: before, fs, after, by rw [e]; rfl, ?_, h2, h3⟩
      simpa [piecesFiles, ArgPiece.files] using h1
    rw [hw.parsed, takeActions_sensible hs, Except.bind, settle_nil, ih this]
    rfl
  | @file f ps rt h ih =>
    rw [parseLoop]
    refine h.run_refused _ (by simp) ?_
    rintro ⟨fs, after, e, h1, h2⟩
    exact hf ⟨[], f :: fs, after, by rw [e]; rfl, rfl, h1, by simpa using h2⟩

/-! ## C134 -/

variable (negNum isInt) in
/-- The parts of a command line are parsed as they should: the options in the order in which they are
given, and the files. -/
def ParsedAs (t : Tool) (ps : List ArgPiece) : Prop :=
  ∃ evs, t.parse negNum isInt (piecesWords ps) = .ok evs ∧
    evs.filter (fun ev => decide (ev ≠ .files (piecesFiles ps))) = givenEvents (piecesGiven ps) ∧
    evs.count (.files (piecesFiles ps)) = 1

/-- C134 as stated: options and files can be given in any order. -/
def C134_full : Prop := ∀ (negNum isInt : Str → Bool) (t : Tool) (ps : List ArgPiece),
  (∀ p ∈ ps, p.Good isInt t.opts) → t.nargs.Accepts (piecesFiles ps).length → ParsedAs negNum isInt t ps

/-- C134, files next to each other: all options are recognised, whatever the spelling, before the
files and behind them. -/
theorem C134_together (t : Tool) {before after : List ArgPiece} {fs : List Str}
    (hb : ∀ p ∈ before, p.Good isInt t.opts) (ha : ∀ p ∈ after, p.Good isInt t.opts)
    (hfb : piecesFiles before = []) (hfa : piecesFiles after = []) (h1 : ∀ f ∈ fs, PlainWord f)
    (h2 : t.nargs.Accepts fs.length) :
    t.parse negNum isInt (piecesWords before ++ fs ++ piecesWords after) =
      .ok (givenEvents (piecesGiven before) ++ .files fs :: givenEvents (piecesGiven after)) := by
  have hg := tool_good t
  obtain ⟨tb, hb1, hb2⟩ := pieces_toks (negNum := negNum) t.nargs hg hb
  obtain ⟨ta, ha1, ha2⟩ := pieces_toks (negNum := negNum) t.nargs hg ha
  have hc := ha2 []
  rw [List.append_nil] at hc
  have hfs : ∀ rest, classify negNum t.opts (fs ++ rest) =
      (classify negNum t.opts rest).map (fs.map .arg ++ ·) := by
    intro rest
    clear h2
    induction fs with
    | nil => cases hr : classify negNum t.opts rest <;> simp [hr, Except.map]
    | cons f fs ih =>
      obtain ⟨c1, c2⟩ := classify_plain (negNum := negNum) hg (h1 f (by simp))
      rw [List.cons_append, classify_one c1 c2, ih fun f hf => h1 f (List.mem_cons_of_mem _ hf)]
      cases classify negNum t.opts rest <;> simp [Except.map]
  unfold Tool.parse parseArgs
  rw [List.append_assoc, hb2, hfs, hc]
  simp only [classify, Except.map, List.append_nil]
  rw [hb1.options_parsed hfb, loop_args, ha1.options_finish hfa, List.nil_append, settle_accepts h2]
  rfl

/-- C134, exactly: among options and files, the files have to be next to each other. -/
theorem C134_exact (t : Tool) {ps : List ArgPiece} (h : ∀ p ∈ ps, p.Good isInt t.opts) :
    (OneRun t.nargs ps ∧ ParsedAs negNum isInt t ps) ∨
      (¬ OneRun t.nargs ps ∧ t.parse negNum isInt (piecesWords ps) = .error usageError) := by
  by_cases hf : OneRun t.nargs ps
  · refine .inl ⟨hf, ?_⟩
    obtain ⟨before, fs, after, rfl, h1, h2, h3⟩ := hf
    have := C134_together (negNum := negNum) (isInt := isInt) t (before := before) (after := after) (fs := fs)
      (fun p hp => h p (by simp [hp])) (fun p hp => h p (by simp [hp])) h1 h2
      (fun f hf => h (.file f) (by simp [hf])) h3
    have hfiles : piecesFiles (before ++ fs.map .file ++ after) = fs := by
      have e1 : before.flatMap ArgPiece.files = [] := h1
      have e2 : after.flatMap ArgPiece.files = [] := h2
      have e3 : (fs.map ArgPiece.file).flatMap ArgPiece.files = fs := by
        rw [List.flatMap_map]
        simp [ArgPiece.files]
      simp only [piecesFiles, List.flatMap_append, e1, e2, e3, List.nil_append, List.append_nil]
    have hwords : piecesWords (before ++ fs.map .file ++ after) = piecesWords before ++ fs ++ piecesWords after := by
      have e3 : (fs.map ArgPiece.file).flatMap ArgPiece.words = fs := by
        rw [List.flatMap_map]
        simp [ArgPiece.words]
      simp only [piecesWords, List.flatMap_append, e3]
    have hgiven : piecesGiven (before ++ fs.map .file ++ after) = piecesGiven before ++ piecesGiven after := by
      have e3 : (fs.map ArgPiece.file).flatMap ArgPiece.given = [] := by
        rw [List.flatMap_map]
        simp [ArgPiece.given]
      simp only [piecesGiven, List.flatMap_append, e3, List.append_nil]
    have hno : ∀ g, (ArgEvent.files fs) ∉ givenEvents g := by
      intro g
      simp [givenEvents]
    have hfil : ∀ g, (givenEvents g).filter (fun ev => decide (ev ≠ .files fs)) = givenEvents g := by
      intro g
      rw [List.filter_eq_self]
      intro ev hev
      have : ev ≠ .files fs := by
        rintro rfl
        exact hno g hev
      simpa using this
    unfold ParsedAs
    rw [hfiles, hwords, hgiven]
    refine ⟨_, this, ?_, ?_⟩
    · rw [List.filter_append, hfil, List.filter_cons_of_neg (by simp), hfil]
      simp [givenEvents]
    · rw [List.count_append, List.count_eq_zero_of_not_mem (hno _), List.count_cons,
        List.count_eq_zero_of_not_mem (hno _)]
      simp
  · refine .inr ⟨hf, ?_⟩
    obtain ⟨toks, h1, h2⟩ := pieces_toks (negNum := negNum) t.nargs (tool_good t) h
    have hc := h2 []
    rw [List.append_nil] at hc
    unfold Tool.parse parseArgs
    rw [hc]
    simp only [classify, Except.map, List.append_nil]
    exact h1.refused hf

/-- C134, as stated for the command lines with the files next to each other. -/
theorem C134_partial (t : Tool) {ps : List ArgPiece} (h : ∀ p ∈ ps, p.Good isInt t.opts)
    (hf : OneRun t.nargs ps) : ParsedAs negNum isInt t ps := by
  rcases C134_exact (negNum := negNum) t h with h | h
  · exact h.2
  · exact absurd hf h.1

/-- C134, behind `--`: everything is a file, whatever it looks like. -/
theorem C134_dashes (t : Tool) {ps : List ArgPiece} (h : ∀ p ∈ ps, p.Good isInt t.opts)
    (hf : piecesFiles ps = []) (fs : List Str) :
    (t.nargs.Accepts fs.length → t.parse negNum isInt (piecesWords ps ++ "--".toList :: fs) =
      .ok (givenEvents (piecesGiven ps) ++ [.files fs])) ∧
    (¬ t.nargs.Accepts fs.length →
      t.parse negNum isInt (piecesWords ps ++ "--".toList :: fs) = .error usageError) := by
  obtain ⟨toks, h1, h2⟩ := pieces_toks (negNum := negNum) t.nargs (tool_good t) h
  have hargs : ([] : List Str) ++ (Tok.dashes :: fs.map Tok.arg).filterMap Tok.argOf = fs := by
    have : (fs.map Tok.arg).filterMap Tok.argOf = fs := by
      rw [List.filterMap_map]
      exact List.filterMap_some ..
    rw [List.filterMap_cons_none rfl, this, List.nil_append]
  unfold Tool.parse parseArgs
  rw [h2, classify, if_pos rfl]
  simp only [Except.map]
  rw [h1.options_parsed hf, parseLoop]
  · unfold parseTail
    rw [hargs, if_pos rfl]
    constructor
    · intro ha
      rw [take_accepts.2 ha]
      rfl
    · intro ha
      cases ht : t.nargs.take fs with
      | none => rfl
      | some x =>
        obtain ⟨gs, rest⟩ := x
        obtain ⟨h3, h4⟩ := take_split ht
        have : rest ≠ [] := by
          rintro rfl
          rw [List.append_nil] at h3
          rw [← h3] at h4
          exact ha h4
        simp [this, Except.map]
  all_goals simp
end

/-- `classdiff a -q b` -/
theorem C134_full_fails : ¬ C134_full := by
  intro h
  have hq : HasString Tool.classdiff.opts (spec .flag ["-q", "--quiet"]) "-q".toList := by
    constructor <;> decide +kernel
  obtain ⟨evs, h1, -⟩ := h (fun _ => false) (fun _ => false) .classdiff
    [.file "a".toList, .options [(spec .flag ["-q", "--quiet"], [])] ["-q".toList], .file "b".toList] (by
      intro p hp
      simp only [List.mem_cons, List.not_mem_nil, or_false] at hp
      rcases hp with rfl | rfl | rfl
      · exact .inl (by decide)
      · refine ⟨.flag hq rfl, ?_⟩
        intro a ha
        simp only [List.mem_cons, List.not_mem_nil, or_false] at ha
        subst ha
        exact ⟨by simp [spec], by simp [spec]⟩
      · exact .inl (by decide)) rfl
  have h2 : Tool.classdiff.parse (fun _ => false) (fun _ => false)
      ["a".toList, "-q".toList, "b".toList] = .error usageError := by decide +kernel
  have h3 : piecesWords [.file "a".toList, .options [(spec .flag ["-q", "--quiet"], [])] ["-q".toList],
      .file "b".toList] = ["a".toList, "-q".toList, "b".toList] := rfl
  rw [h3, h2] at h1
  simp at h1

example : Tool.classdiff.parse (fun _ => false) (fun _ => false)
    (["-qjoout", "--ig=lines", "a", "-", "--ignore-p", "--report", "html"].map String.toList) =
      .error usageError := by decide +kernel

example : Tool.classdiff.parse (fun _ => false) (fun _ => false)
    (["-qjoout", "--ignore=lines", "a", "-", "--ignore-po", "--report", "html"].map String.toList) =
      .ok [.opt (spec .flag ["-q", "--quiet"]) [], .opt (spec .flag ["-j", "--json"]) [],
        .opt (spec .value ["-o", "--output"]) ["out".toList], .opt (spec .value ["--ignore"]) ["lines".toList],
        .files ["a".toList, "-".toList], .opt (spec .flag ["--ignore-pool"]) [],
        .opt (spec .value ["--report"]) ["html".toList]] := by decide +kernel

/-- `classinfo A.class -l B.class` is refused, `classinfo -l A.class B.class` is not. -/
example : Tool.classinfo.parse (fun _ => false) (fun _ => false)
      (["A.class", "-l", "B.class"].map String.toList) = .error usageError ∧
    Tool.classinfo.parse (fun _ => false) (fun _ => false)
      (["-lcs", "A.class", "B.class", "--pri"].map String.toList) =
      .ok [.opt (spec .flag ["-l"]) [], .opt (spec .flag ["-c"]) [], .opt (spec .flag ["-s"]) [],
        .files ["A.class".toList, "B.class".toList], .opt (spec .flag ["--private"]) []] := by decide +kernel

/-! ## C135 -/

section
variable {negNum isInt : Str → Bool} {opts : List OptSpec} {nargs : Nargs}

theorem classifyArg_arg {s a : Str} {t : Tok} (h : classifyArg negNum opts s = .ok t)
    (ha : t.argOf = some a) : s = a := by
  unfold classifyArg at h
  repeat' split at h
  all_goals first
    | (simp only [Except.ok.injEq] at h; subst h; first | exact Option.some.inj ha | simp [Tok.argOf] at ha)
    | simp at h

theorem classify_args {argv : List Str} {toks : List Tok} (h : classify negNum opts argv = .ok toks) :
    (toks.filterMap Tok.argOf).Sublist argv := by
  induction argv generalizing toks with
  | nil =>
    simp only [classify, Except.ok.injEq] at h
    subst h
    exact List.Sublist.refl _
  | cons s ss ih =>
    rw [classify] at h
    split at h
    · simp only [Except.ok.injEq] at h
      subst h
      have : ((ss.map Tok.arg).filterMap Tok.argOf) = ss := by
        rw [List.filterMap_map]
        exact List.filterMap_some ..
      rw [List.filterMap_cons_none rfl, this]
      exact List.sublist_cons_self ..
    · split at h
      · simp at h
      · rename_i t ht
        split at h
        · simp at h
        · rename_i ts hts
          simp only [Except.ok.injEq] at h
          subst h
          cases ha : t.argOf with
          | none =>
            rw [List.filterMap_cons_none ha]
            exact (ih hts).cons _
          | some a =>
            rw [List.filterMap_cons_some ha, classifyArg_arg ht ha]
            exact (ih hts).cons_cons _

theorem classifyArg_error {s : Str} {e : PyErr} (h : classifyArg negNum opts s = .error e) : e = usageError := by
  unfold classifyArg at h
  repeat' split at h
  all_goals first
    | (simp only [Except.error.injEq] at h; exact h.symm)
    | simp at h

theorem classify_error {argv : List Str} {e : PyErr} (h : classify negNum opts argv = .error e) :
    e = usageError := by
  induction argv with
  | nil => simp [classify] at h
  | cons s ss ih =>
    rw [classify] at h
    split at h
    · simp at h
    · split at h
      · rename_i e' he
        simp only [Except.error.injEq] at h
        rw [← h]
        exact classifyArg_error he
      · split at h
        · rename_i e' he
          simp only [Except.error.injEq] at h
          subst h
          exact ih he
        · simp at h

/-- An option is carried out. -/
def ArgEvent.isOption : ArgEvent → Bool
  | .opt _ _ => true
  | .files _ => false

theorem takeActions_isOption {as : List (OptSpec × List Str)} {evs : List ArgEvent}
    (h : takeActions isInt as = .ok evs) : ∀ ev ∈ evs, ev.isOption = true := by
  induction as generalizing evs with
  | nil =>
    simp only [takeActions, Except.ok.injEq] at h
    subst h
    simp
  | cons a as ih =>
    obtain ⟨o, args⟩ := a
    rw [takeActions] at h
    split at h
    · simp at h
    · rename_i ev hev
      split at h
      · simp at h
      · rename_i evs' he
        simp only [Except.ok.injEq] at h
        subst h
        intro x hx
        rcases List.mem_cons.1 hx with rfl | hx
        · unfold takeAction at hev
          repeat' split at hev
          all_goals first
            | (simp only [Except.ok.injEq] at hev; rw [← hev]; rfl)
            | simp at hev
        · exact ih he x hx

theorem takeActions_error {as : List (OptSpec × List Str)} {e : PyErr}
    (h : takeActions isInt as = .error e) : e = usageError ∨ e = helpExit := by
  induction as with
  | nil => simp [takeActions] at h
  | cons a as ih =>
    obtain ⟨o, args⟩ := a
    rw [takeActions] at h
    split at h
    · rename_i e' he
      simp only [Except.error.injEq] at h
      subst h
      unfold takeAction at he
      repeat' split at he
      all_goals first
        | (simp only [Except.error.injEq] at he; simp [← he])
        | simp at he
    · split at h
      · rename_i e' he
        simp only [Except.error.injEq] at h
        subst h
        exact ih he
      · simp at h

theorem consumeExplicit_error {s : Str} {o : OptSpec} {b : Bool} {e : PyErr}
    (h : consumeExplicit opts s o b = .error e) : e = usageError := by
  induction s generalizing o b with
  | nil =>
    rw [consumeExplicit] at h
    split at h <;> simp at h
    exact h.symm
  | cons c cs ih =>
    rw [consumeExplicit] at h
    repeat' split at h
    all_goals first
      | (simp only [Except.error.injEq] at h; exact h.symm)
      | skip
    all_goals first
      | (rename_i e' he; simp only [Except.error.injEq] at h; subst h; exact ih he)
      | simp at h

theorem consumeWord_error {s : Str} {x : Option Str} {o : OptSpec} {e : PyErr}
    (h : consumeWord opts o s x = .error e) : e = usageError := by
  cases x with
  | none => simp [consumeWord] at h
  | some x => exact consumeExplicit_error h

/-- What the actions say about the files: there are as many as there may be, from these words, if they are
wanted. -/
def FilesIn (nargs : Nargs) (pending : Bool) (args : List Str) (evs : List ArgEvent) : Prop :=
  if pending then ∃ pre fs post, evs = pre ++ .files fs :: post ∧ fs.Sublist args ∧ nargs.Accepts fs.length ∧
    (∀ ev ∈ pre, ev.isOption = true) ∧ ∀ ev ∈ post, ev.isOption = true
  else ∀ ev ∈ evs, ev.isOption = true

theorem FilesIn.mono {pending : Bool} {args args' : List Str} {evs : List ArgEvent}
    (h : FilesIn nargs pending args evs) (hs : args.Sublist args') : FilesIn nargs pending args' evs := by
  cases pending with
  | false => exact h
  | true =>
    obtain ⟨pre, fs, post, h1, h2, h3⟩ := h
    exact ⟨pre, fs, post, h1, h2.trans hs, h3⟩

theorem FilesIn.append {pending : Bool} {args : List Str} {evs es : List ArgEvent}
    (h : FilesIn nargs pending args evs)
    (he : ∀ ev ∈ es, ev.isOption = true) : FilesIn nargs pending args (es ++ evs) := by
  cases pending with
  | false =>
    intro ev hev
    rcases List.mem_append.1 hev with hev | hev
    · exact he ev hev
    · exact h ev hev
  | true =>
    obtain ⟨pre, fs, post, h1, h2, h3, h4, h5⟩ := h
    refine ⟨es ++ pre, fs, post, by rw [h1, List.append_assoc], h2, h3, ?_, h5⟩
    intro ev hev
    rcases List.mem_append.1 hev with hev | hev
    · exact he ev hev
    · exact h4 ev hev

/-- The files before an option. -/
theorem FilesIn.settle {pending extras : Bool} {run args : List Str} {evs : List ArgEvent}
    (h : FilesIn nargs (settle nargs pending extras run).pending args evs) :
    FilesIn nargs pending (run ++ args) ((settle nargs pending extras run).events ++ evs) := by
  unfold Javatools.settle at h ⊢
  split at h <;> rename_i hr
  · simp only [hr, if_true]
    exact h.mono (List.sublist_append_right ..)
  · simp only [hr, Bool.false_eq_true, if_false]
    split at h <;> rename_i hp
    · simp only [hp, if_true]
      split at h <;> rename_i ht
      · rename_i fs rest
        obtain ⟨h1, h2⟩ := take_split ht
        simp only [ht]
        refine ⟨[], fs, evs, rfl, ?_, h2, by simp, h⟩
        rw [h1, List.append_assoc]
        exact List.sublist_append_left ..
      · simp only [ht]
        exact h.mono (List.sublist_append_right ..)
    · simp only [hp, Bool.false_eq_true, if_false]
      exact h

theorem parseTail_files {pending extras : Bool} {run : List Str} {toks : List Tok} {evs : List ArgEvent}
    (h : parseTail nargs pending extras run toks = .ok evs) :
    FilesIn nargs pending (run ++ toks.filterMap Tok.argOf) evs := by
  unfold parseTail at h
  split at h
  · rename_i hp
    split at h
    · simp at h
    · rename_i fs rest hm
      split at h
      · simp at h
      · simp only [Except.ok.injEq] at h
        subst h
        obtain ⟨h1, h2⟩ := take_split hm
        rw [hp]
        refine ⟨[], _, [], rfl, ?_, h2, by simp, by simp⟩
        rw [h1]
        exact List.sublist_append_left ..
  · rename_i hp
    split at h
    · simp at h
    · simp only [Except.ok.injEq] at h
      subst h
      simp [FilesIn, hp]

theorem parseTail_error {pending extras : Bool} {run : List Str} {toks : List Tok} {e : PyErr}
    (h : parseTail nargs pending extras run toks = .error e) : e = usageError := by
  unfold parseTail at h
  repeat' split at h
  all_goals first
    | (simp only [Except.error.injEq] at h; exact h.symm)
    | simp at h

theorem map_ok {α β : Type} {f : α → β} {x : Res α} {y : β} (h : x.map f = .ok y) : ∃ a, x = .ok a ∧ f a = y := by
  cases x with
  | error e => simp [Except.map] at h
  | ok a => exact ⟨a, rfl, by simpa [Except.map] using h⟩

theorem map_error {α β : Type} {f : α → β} {x : Res α} {e : PyErr} (h : x.map f = .error e) : x = .error e := by
  cases x with
  | error e' => simpa [Except.map] using h
  | ok a => simp [Except.map] at h

theorem argOf_arg (a : Str) (ts : List Tok) :
    (Tok.arg a :: ts).filterMap Tok.argOf = a :: ts.filterMap Tok.argOf := rfl

theorem argOf_opt (o : Option OptSpec) (s : Str) (e : Option Str) (ts : List Tok) :
    (Tok.opt o s e :: ts).filterMap Tok.argOf = ts.filterMap Tok.argOf := rfl

theorem parseLoop_files {pending extras : Bool} {run : List Str} {toks : List Tok} {evs : List ArgEvent}
    (h : parseLoop isInt opts nargs pending extras run toks = .ok evs) :
    FilesIn nargs pending (run ++ toks.filterMap Tok.argOf) evs := by
  fun_induction parseLoop isInt opts nargs pending extras run toks generalizing evs
  case case1 ih =>
    obtain ⟨es, h1, rfl⟩ := map_ok h
    rw [argOf_opt]
    exact (ih h1).settle
  case case4 ht ih =>
    obtain ⟨es, h1, rfl⟩ := map_ok h
    rw [argOf_opt, List.append_assoc]
    exact ((ih h1).append (takeActions_isOption ht)).settle
  case case6 ht ih =>
    obtain ⟨es, h1, rfl⟩ := map_ok h
    rw [argOf_opt, argOf_arg, List.append_assoc]
    refine ((ih h1).append (takeActions_isOption ht)).settle.mono ?_
    exact (List.Sublist.refl _).append (List.sublist_cons_self ..)
  case case9 ht ih =>
    obtain ⟨es, h1, rfl⟩ := map_ok h
    rw [argOf_opt, List.append_assoc]
    exact ((ih h1).append (takeActions_isOption ht)).settle
  case case10 ih =>
    rw [argOf_arg, List.append_cons]
    exact ih h
  case case11 => exact parseTail_files h
  all_goals simp at h

theorem parseLoop_error {pending extras : Bool} {run : List Str} {toks : List Tok} {e : PyErr}
    (h : parseLoop isInt opts nargs pending extras run toks = .error e) : e = usageError ∨ e = helpExit := by
  fun_induction parseLoop isInt opts nargs pending extras run toks generalizing e
  case case1 ih => exact ih (map_error h)
  case case2 hc =>
    simp only [Except.error.injEq] at h
    subst h
    exact .inl (consumeWord_error hc)
  case case3 ht =>
    simp only [Except.error.injEq] at h
    subst h
    exact takeActions_error ht
  case case4 ih => exact ih (map_error h)
  case case5 ht =>
    simp only [Except.error.injEq] at h
    subst h
    exact takeActions_error ht
  case case6 ih => exact ih (map_error h)
  case case7 => exact .inl (by simpa using h.symm)
  case case8 ht =>
    simp only [Except.error.injEq] at h
    subst h
    exact takeActions_error ht
  case case9 ih => exact ih (map_error h)
  case case10 ih => exact ih h
  case case11 => exact .inl (parseTail_error h)

/-- C135: a command line that is accepted names as many files as there may be, which are words of it in
this order. All other actions are options. -/
theorem C135_files (t : Tool) {argv : List Str} {evs : List ArgEvent} (h : t.parse negNum isInt argv = .ok evs) :
    ∃ pre fs post, evs = pre ++ .files fs :: post ∧ fs.Sublist argv ∧ t.nargs.Accepts fs.length ∧
      (∀ ev ∈ pre, ev.isOption = true) ∧ ∀ ev ∈ post, ev.isOption = true := by
  unfold Tool.parse parseArgs at h
  split at h
  · simp at h
  · rename_i ts hc
    exact (parseLoop_files h).mono (classify_args hc)

/-- C135, otherwise there is an exit with status 2 or, for help, 0. -/
theorem C135_exits (t : Tool) {argv : List Str} {e : PyErr} (h : t.parse negNum isInt argv = .error e) :
    e = usageError ∨ e = helpExit := by
  unfold Tool.parse parseArgs at h
  split at h
  · rename_i e' he
    simp only [Except.error.injEq] at h
    subst h
    exact .inl (classify_error he)
  · exact parseLoop_error h

/-- C135, too few words are never accepted. -/
theorem C135_short (t : Tool) {argv : List Str} (h : ∀ n ≤ argv.length, ¬ t.nargs.Accepts n) :
    t.parse negNum isInt argv = .error usageError ∨ t.parse negNum isInt argv = .error helpExit := by
  cases hp : t.parse negNum isInt argv with
  | error e => simpa using C135_exits t hp
  | ok evs =>
    obtain ⟨pre, fs, post, -, hs, ha, -⟩ := C135_files t hp
    exact absurd ha (h _ hs.length_le)
end

/-- C135, the functions for default options: they parse the empty command line, and exit with status 2. -/
theorem C135_defaults (negNum isInt : Str → Bool) (t : Tool) :
    t.defaultOptions negNum isInt = .error usageError := by
  cases t <;> rfl

example : Tool.jardiff.parse (fun _ => false) (fun _ => false)
    (["a.jar", "-q", "--", "b.jar"].map String.toList) = .error usageError := by decide +kernel

example : Tool.jardiff.parse (fun _ => false) (fun _ => false)
    (["-q", "a.jar", "--", "-b.jar"].map String.toList) =
      .ok [.opt (spec .flag ["-q", "--quiet"]) [], .files ["a.jar".toList, "-b.jar".toList]] := by decide +kernel

example : Tool.distinfo.parse (fun _ => false) (fun _ => false)
    (["a", "b"].map String.toList) = .error usageError := by decide +kernel

example : Tool.jardiff.parse (fun _ => false) (fun _ => false)
    (["a.jar", "-q", "-hq"].map String.toList) = .error helpExit := by decide +kernel

/-! ## C136 -/

section
variable {negNum isInt : Str → Bool}

theorem classify_congr {opts : List OptSpec} {w w' : Str} (hw : w ≠ "--".toList) (hw' : w' ≠ "--".toList)
    (h : classifyArg negNum opts w = classifyArg negNum opts w') (pre post : List Str) (hp : "--".toList ∉ pre) :
    classify negNum opts (pre ++ w :: post) = classify negNum opts (pre ++ w' :: post) := by
  induction pre with
  | nil => rw [List.nil_append, List.nil_append, classify, classify, if_neg hw, if_neg hw', h]
  | cons x pre ih =>
    simp only [List.mem_cons, not_or] at hp
    have hx : x ≠ "--".toList := fun e => hp.1 e.symm
    rw [List.cons_append, List.cons_append, classify, classify, ih hp.2, if_neg hx, if_neg hx]

/-- C136: an abbreviation of a long option is as good as the option, wherever it stands before `--`. -/
theorem C136_unique (t : Tool) {o : OptSpec} {p s : Str} (h : Abbrev t.opts p o s) (pre post : List Str)
    (hp : "--".toList ∉ pre) :
    t.parse negNum isInt (pre ++ p :: post) = t.parse negNum isInt (pre ++ s :: post) := by
  have hg := tool_good t
  obtain ⟨h1, h2⟩ := classify_abbrev (negNum := negNum) hg h
  unfold Tool.parse parseArgs
  rw [classify_congr h2 (h.has.notDashes hg) (h1.trans (classify_exact hg h.has).symm) _ _ hp]

/-- C136, the same with the argument behind an equals sign. -/
theorem C136_equals (t : Tool) {o : OptSpec} {p s : Str} (h : Abbrev t.opts p o s) (v : Str)
    (pre post : List Str) (hp : "--".toList ∉ pre) :
    t.parse negNum isInt (pre ++ (p ++ '=' :: v) :: post) =
      t.parse negNum isInt (pre ++ (s ++ '=' :: v) :: post) := by
  have hg := tool_good t
  unfold Tool.parse parseArgs
  rw [classify_congr equals_notDashes equals_notDashes
    ((classify_abbrevEquals hg h).trans (classify_equals hg h.has).symm) _ _ hp]

theorem classify_refused {opts : List OptSpec} {w : Str} (hw : w ≠ "--".toList)
    (h : classifyArg negNum opts w = .error usageError) (pre post : List Str) (hp : "--".toList ∉ pre) :
    classify negNum opts (pre ++ w :: post) = .error usageError := by
  induction pre with
  | nil => rw [List.nil_append, classify, if_neg hw, h]
  | cons x pre ih =>
    simp only [List.mem_cons, not_or] at hp
    rw [List.cons_append, classify, if_neg (fun e => hp.1 e.symm), ih hp.2]
    cases hx : classifyArg negNum opts x with
    | error e => rw [classifyArg_error hx]
    | ok t => rfl

/-- The word begins several long options and is none. -/
structure Ambiguous (opts : List OptSpec) (p : Str) : Prop where
  long : ∃ r, r ≠ [] ∧ p = '-' :: '-' :: r
  none : ∀ o, ¬ HasString opts o p
  several : ∃ o s o' s', HasString opts o s ∧ HasString opts o' s' ∧ s ≠ s' ∧ p <+: s ∧ p <+: s'

theorem two_of_mem {α : Type} {l : List α} {x y : α} (hx : x ∈ l) (hy : y ∈ l) (h : x ≠ y) :
    ∃ a b r, l = a :: b :: r := by
  match l with
  | [] => simp at hx
  | [a] =>
    simp at hx hy
    exact absurd (hx.trans hy.symm) h
  | a :: b :: r => exact ⟨a, b, r, rfl⟩

/-- C136, an ambiguous abbreviation is refused, wherever it stands before `--`: also as the argument of an
option. -/
theorem C136_ambiguous (t : Tool) {p : Str} (h : Ambiguous t.opts p) (pre post : List Str)
    (hp : "--".toList ∉ pre) :
    t.parse negNum isInt (pre ++ p :: post) = .error usageError ∧
    ∀ v, t.parse negNum isInt (pre ++ (p ++ '=' :: v) :: post) = .error usageError := by
  have hg := tool_good t
  obtain ⟨o, s, o', s', h1, h2, hne, h3, h4⟩ := h.several
  obtain ⟨r, hr, hpr⟩ := h.long
  have heq : '=' ∉ p := fun hm => (hg.shape _ _ h1).1 (h3.subset hm)
  have hl : lookupOption t.opts p = none := lookup_none.2 h.none
  obtain ⟨a, b, rest, hf⟩ : ∃ a b r, (optionStrings t.opts).filter (fun x => p.isPrefixOf x.1) = a :: b :: r := by
    refine two_of_mem (x := (s, o)) (y := (s', o')) ?_ ?_ (by simp [hne])
    · exact List.mem_filter.2 ⟨hasString_mem.1 h1, List.isPrefixOf_iff_prefix.2 h3⟩
    · exact List.mem_filter.2 ⟨hasString_mem.1 h2, List.isPrefixOf_iff_prefix.2 h4⟩
  have c1 : classifyArg negNum t.opts p = .error usageError := by
    have h5 := splitEq_none heq
    have h6 : optionTuples t.opts p = (a.2, a.1, none) :: (b.2, b.1, none) :: rest.map fun x => (x.2, x.1, none) := by
      unfold optionTuples
      rw [h5]
      rw [hpr] at hf ⊢
      simp only [hf, List.map_cons]
    unfold classifyArg
    rw [if_neg (by simp [hpr]), hl, h5, h6]
    simp [hpr]
  have c2 : ∀ v, classifyArg negNum t.opts (p ++ '=' :: v) = .error usageError := by
    intro v
    have hl' : lookupOption t.opts (p ++ '=' :: v) = none := by
      rw [lookup_none]
      intro o' h'
      exact (hg.shape _ _ h').1 (by simp)
    have h5 : splitEq (p ++ '=' :: v) = some (p, v) := splitFirst_append heq
    have h6 : optionTuples t.opts (p ++ '=' :: v) =
        (a.2, a.1, some v) :: (b.2, b.1, some v) :: rest.map fun x => (x.2, x.1, some v) := by
      unfold optionTuples
      rw [h5]
      rw [hpr] at hf ⊢
      simp only [List.cons_append, hf, List.map_cons]
    unfold classifyArg
    rw [if_neg (by simp [hpr]), hl', h5, h6]
    simp [hpr, hpr ▸ hl]
  constructor
  · unfold Tool.parse parseArgs
    rw [classify_refused (by rw [hpr]; simpa using hr) c1 _ _ hp]
  · intro v
    unfold Tool.parse parseArgs
    rw [classify_refused equals_notDashes (c2 v) _ _ hp]
end

/-- `--html-j` is `--html-javascript`. -/
example : Tool.classdiff.parse (fun _ => false) (fun _ => false)
    (["a", "b", "--html-j", "x"].map String.toList) =
      .ok [.files ["a".toList, "b".toList], .opt (spec .value ["--html-javascript"]) ["x".toList]] := by
  decide +kernel

/-- `--ignore-version` is an option though it begins two others. -/
example : Tool.classdiff.parse (fun _ => false) (fun _ => false)
    (["a", "b", "--ignore-version"].map String.toList) =
      .ok [.files ["a".toList, "b".toList], .opt (spec .flag ["--ignore-version"]) []] := by
  decide +kernel

/-- `--ignore-m` of jardiff. -/
example : Ambiguous Tool.jardiff.opts "--ignore-m".toList :=
  ⟨⟨"ignore-m".toList, by decide, by decide⟩, lookup_none.1 (by decide +kernel),
    spec .flag ["--ignore-manifest"], "--ignore-manifest".toList,
    spec .value ["--ignore-manifest-key"], "--ignore-manifest-key".toList,
    by constructor <;> decide +kernel, by constructor <;> decide +kernel, by decide,
    by decide, by decide⟩

/-! ## C137 -/

/-- The options of classdiff without arguments that set attributes. -/
def flagSets : List (String × List String) := [
  ("--ignore-lines", ["ignore_lines", "ignore_absolute_lines", "ignore_relative_lines"]),
  ("--ignore-version", ["ignore_version", "ignore_version_up", "ignore_version_down"]),
  ("--ignore-platform", ["ignore_platform", "ignore_platform_up", "ignore_platform_down"]),
  ("--ignore-version-up", ["ignore_version_up"]),
  ("--ignore-version-down", ["ignore_version_down"]),
  ("--ignore-platform-up", ["ignore_platform_up"]),
  ("--ignore-platform-down", ["ignore_platform_down"]),
  ("--ignore-absolute-lines", ["ignore_absolute_lines"]),
  ("--ignore-relative-lines", ["ignore_relative_lines"]),
  ("--ignore-deprecated", ["ignore_deprecated"]),
  ("--ignore-added", ["ignore_added"]),
  ("--ignore-pool", ["ignore_pool"])]

/-- An option of classdiff that is given with these arguments sets this attribute. -/
inductive Sets : OptSpec × List Str → Str → Prop where
  | ignore {v i} : i ∈ ((splitChar ',' v).map strip).filter (fun i => !i.isEmpty) →
      Sets (spec .value ["--ignore"], [v]) (ignoreAttr i)
  | flag {s ks} {k : String} : (s, ks) ∈ flagSets → k ∈ ks → Sets (spec .flag [s], []) k.toList

/-- What an option that is given means to the comparison. -/
def givenOptArg (g : OptSpec × List Str) : Option OptArg := (ArgEvent.opt g.1 g.2).optArg

theorem flag_optArg {o : OptSpec} (ho : o ∈ Tool.classdiff.opts) :
    (givenOptArg (o, [])).map setsAttrs =
      (flagSets.find? fun x => decide (o = spec .flag [x.1])).map fun x => x.2.map String.toList := by
  have : ∀ o ∈ Tool.classdiff.opts, (givenOptArg (o, [])).map setsAttrs =
      (flagSets.find? fun x => decide (o = spec .flag [x.1])).map fun x => x.2.map String.toList := by
    decide +kernel
  exact this o ho

theorem flag_find {x : String × List String} (hx : x ∈ flagSets) :
    flagSets.find? (fun y => decide (spec .flag [x.1] = spec .flag [y.1])) = some x := by
  have : ∀ x ∈ flagSets, flagSets.find? (fun y => decide (spec .flag [x.1] = spec .flag [y.1])) = some x := by
    decide +kernel
  exact this x hx

theorem ignore_optArg {o : OptSpec} (ho : o ∈ Tool.classdiff.opts) :
    o.strings = ["--ignore".toList] ↔ o = spec .value ["--ignore"] := by
  have : ∀ o ∈ Tool.classdiff.opts, o.strings = ["--ignore".toList] ↔ o = spec .value ["--ignore"] := by
    decide +kernel
  exact this o ho

theorem sets_optArg {g : OptSpec × List Str} (ho : g.1 ∈ Tool.classdiff.opts) (k : Str) :
    (∃ a, givenOptArg g = some a ∧ k ∈ setsAttrs a) ↔ Sets g k := by
  obtain ⟨o, args⟩ := g
  match args with
  | [] =>
    have h := flag_optArg ho
    constructor
    · rintro ⟨a, h1, h2⟩
      rw [h1, Option.map_some] at h
      cases hf : flagSets.find? (fun x => decide (o = spec .flag [x.1])) with
      | none => simp [hf] at h
      | some x =>
        rw [hf, Option.map_some] at h
        rw [Option.some.inj h] at h2
        obtain ⟨k', hk, rfl⟩ := List.mem_map.1 h2
        have ho' := List.find?_some hf
        simp only [decide_eq_true_eq] at ho'
        rw [ho']
        exact .flag (List.mem_of_find?_eq_some hf) hk
    · intro hs
      cases hs with
      | flag hm hk =>
        rw [flag_find hm, Option.map_some] at h
        obtain ⟨a, h1, h2⟩ := Option.map_eq_some_iff.1 h
        exact ⟨a, h1, by rw [h2]; exact List.mem_map_of_mem hk⟩
  | [v] =>
    have h : givenOptArg (o, [v]) = if o.strings = ["--ignore".toList] then some (.ignore v) else none := rfl
    constructor
    · rintro ⟨a, h1, h2⟩
      rw [h] at h1
      split at h1
      · rename_i hs
        rw [← Option.some.inj h1] at h2
        obtain ⟨i, hi, rfl⟩ := List.mem_map.1 h2
        have ho' : o = spec .value ["--ignore"] := (ignore_optArg ho).1 hs
        rw [ho']
        exact .ignore hi
      · simp at h1
    · intro hs
      cases hs with
      | ignore hi =>
        refine ⟨.ignore v, ?_, List.mem_map_of_mem hi⟩
        rw [h]
        rfl
  | _ :: _ :: _ =>
    constructor
    · rintro ⟨a, h1, -⟩
      simp [givenOptArg, ArgEvent.optArg] at h1
    · intro hs
      cases hs

theorem Spells.mem {opts : List OptSpec} {g : List (OptSpec × List Str)} {ws : List Str} (h : Spells opts g ws) :
    ∀ a ∈ g, a.1 ∈ opts := by
  intro a ha
  cases h with
  | flag h | value h | equals h =>
    simp only [List.mem_cons, List.not_mem_nil, or_false] at ha
    rw [ha]
    exact h.1
  | abbrevFlag h | abbrevValue h | abbrevEquals h =>
    simp only [List.mem_cons, List.not_mem_nil, or_false] at ha
    rw [ha]
    exact h.has.1
  | cluster _ h =>
    obtain ⟨x, hx, rfl⟩ := List.mem_map.1 ha
    exact (h x hx).1.1
  | clusterValue _ h ho =>
    rcases List.mem_append.1 ha with ha | ha
    · obtain ⟨x, hx, rfl⟩ := List.mem_map.1 ha
      exact (h x hx).1.1
    · simp only [List.mem_cons, List.not_mem_nil, or_false] at ha
      rw [ha]
      exact ho.1
  | clusterAttached h ho =>
    rcases List.mem_append.1 ha with ha | ha
    · obtain ⟨x, hx, rfl⟩ := List.mem_map.1 ha
      exact (h x hx).1.1
    · simp only [List.mem_cons, List.not_mem_nil, or_false] at ha
      rw [ha]
      exact ho.1

theorem good_mem {isInt : Str → Bool} {opts : List OptSpec} {ps : List ArgPiece} (h : ∀ p ∈ ps, p.Good isInt opts) :
    ∀ g ∈ piecesGiven ps, g.1 ∈ opts := by
  intro g hg
  obtain ⟨p, hp, hgp⟩ := List.mem_flatMap.1 hg
  have := h p hp
  cases p with
  | options gs ws => exact this.1.mem g hgp
  | file f => simp [ArgPiece.given] at hgp

/-- What is done for a command line that is accepted. -/
theorem parsed_events (negNum : Str → Bool) {isInt : Str → Bool} {t : Tool} {ps : List ArgPiece}
    (h : ∀ p ∈ ps, p.Good isInt t.opts) (hr : OneRun t.nargs ps) :
    ∃ evs, t.parse negNum isInt (piecesWords ps) = .ok evs ∧
      (∀ ev, ev ∈ evs ↔ ev = .files (piecesFiles ps) ∨ ∃ g ∈ piecesGiven ps, ev = .opt g.1 g.2) ∧
      eventFiles evs = piecesFiles ps := by
  obtain ⟨evs, h1, h2, h3⟩ := C134_partial (negNum := negNum) t h hr
  refine ⟨evs, h1, ?_, ?_⟩
  · intro ev
    have hm : ev ∈ evs.filter (fun ev => decide (ev ≠ .files (piecesFiles ps))) ↔
        ∃ g ∈ piecesGiven ps, ev = .opt g.1 g.2 := by
      rw [h2, givenEvents, List.mem_map]
      constructor
      · rintro ⟨g, hg, rfl⟩
        exact ⟨g, hg, rfl⟩
      · rintro ⟨g, hg, rfl⟩
        exact ⟨g, hg, rfl⟩
    rw [← hm, List.mem_filter]
    have hf : .files (piecesFiles ps) ∈ evs := by
      rw [← List.count_pos_iff, h3]
      exact Nat.one_pos
    constructor
    · intro hev
      by_cases he : ev = .files (piecesFiles ps)
      · exact .inl he
      · exact .inr ⟨hev, by simpa using he⟩
    · rintro (rfl | ⟨hev, -⟩)
      · exact hf
      · exact hev
  · generalize hw : ArgEvent.files (piecesFiles ps) = w at h2 h3
    have hg : ∀ ev ∈ evs, ev ≠ w → ev.filesOf = [] := by
      intro ev hev hne
      have : ev ∈ givenEvents (piecesGiven ps) := by
        rw [← h2]
        exact List.mem_filter.2 ⟨hev, by simpa using hne⟩
      obtain ⟨g, -, rfl⟩ := List.mem_map.1 this
      rfl
    have hwf : w.filesOf = piecesFiles ps := by rw [← hw]; rfl
    rw [← hwf]
    clear h1 h2 hw hwf
    unfold eventFiles
    induction evs with
    | nil => simp at h3
    | cons ev evs ih =>
      rw [List.flatMap_cons]
      by_cases he : ev = w
      · subst he
        rw [List.count_cons_self] at h3
        have h0 : evs.count ev = 0 := by omega
        have : evs.flatMap ArgEvent.filesOf = [] := by
          rw [List.flatMap_eq_nil_iff]
          intro x hx
          refine hg x (List.mem_cons_of_mem _ hx) ?_
          rintro rfl
          exact List.count_eq_zero.1 h0 hx
        rw [this, List.append_nil]
      · rw [List.count_cons_of_ne he] at h3
        rw [hg ev List.mem_cons_self he, List.nil_append]
        exact ih h3 fun x hx => hg x (List.mem_cons_of_mem _ hx)

theorem status_attr (T : Texts) (lim depth : Nat) {o o' : Opts} (l r : ClassInfo)
    (h : ∀ name, o.attr name = o'.attr name) :
    classDiffStatus T lim depth o l r = classDiffStatus T lim depth o' l r := by
  cases hc : (javaClassChange T lim depth l r).check with
  | error e => simp only [classDiffStatus, hc, Except.map]
  | ok x =>
    have h1 : classDiffStatus T lim depth o l r = .ok (Change.exitStatus o x) := by
      simp only [classDiffStatus, hc, Except.map]
    have h2 : classDiffStatus T lim depth o' l r = .ok (Change.exitStatus o' x) := by
      simp only [classDiffStatus, hc, Except.map]
    rw [h1, h2, C43_other_options T lim depth o l r o' _ _ h1 h2]
    intro y _ _
    unfold actual
    simp only [h]

section
variable (negNum isInt : Str → Bool) (T : Texts) (lim depth : Nat)
variable (read : Str → Res ClassInfo) (other : List ArgEvent → ClassInfo → ClassInfo → Res Nat)

/-- A silent run without reports, with the two files next to each other. -/
structure Silent (ps : List ArgPiece) (a b : Str) : Prop where
  good : ∀ p ∈ ps, p.Good isInt Tool.classdiff.opts
  run : OneRun .two ps
  files : piecesFiles ps = [a, b]
  quiet : (spec .flag ["-q", "--quiet"], []) ∈ piecesGiven ps
  noReport : ∀ g ∈ piecesGiven ps, g.1 ≠ spec .value ["--report"]

/-- C137, what a silent run returns: the exit status of the comparison with the attributes set that the
given options set, and no others. -/
theorem C137_status {ps : List ArgPiece} {a b : Str} (h : Silent isInt ps a b) {o : Opts}
    (ho : ∀ name : String, o.attr name = true ↔ ∃ g ∈ piecesGiven ps, Sets g name.toList) :
    classdiffMain negNum isInt T lim depth read other (piecesWords ps) =
      (read a).bind fun l => (read b).bind fun r => classDiffStatus T lim depth o l r := by
  obtain ⟨evs, hp, hmemev, hef⟩ := parsed_events negNum (t := .classdiff) h.good h.run
  rw [h.files] at hmemev hef
  have hmem : ∀ g ∈ piecesGiven ps, g.1 ∈ Tool.classdiff.opts := good_mem h.good
  unfold classdiffMain
  rw [hp]
  simp only
  have hq : quietGiven evs = true := by
    unfold quietGiven
    rw [List.any_eq_true]
    exact ⟨_, (hmemev _).2 (.inr ⟨_, h.quiet, rfl⟩), by simp⟩
  have hr : reportGiven evs = false := by
    unfold reportGiven
    rw [List.any_eq_false]
    intro ev hev
    rcases (hmemev ev).1 hev with rfl | ⟨g, hg, rfl⟩
    · simp
    · simp [h.noReport g hg]
  have hattr : ∀ name, (parseOpts (evs.filterMap ArgEvent.optArg)).attr name = o.attr name := by
    intro name
    rw [Bool.eq_iff_iff, C43_parsed, ho]
    constructor
    · rintro ⟨x, hx, hk⟩
      obtain ⟨ev, hev, hx⟩ := List.mem_filterMap.1 hx
      rcases (hmemev ev).1 hev with rfl | ⟨g, hg, rfl⟩
      · simp [ArgEvent.optArg] at hx
      · exact ⟨g, hg, (sets_optArg (hmem g hg) _).1 ⟨x, hx, hk⟩⟩
    · rintro ⟨g, hg, hk⟩
      obtain ⟨x, hx, hk⟩ := (sets_optArg (hmem g hg) _).2 hk
      exact ⟨x, List.mem_filterMap.2 ⟨_, (hmemev _).2 (.inr ⟨g, hg, rfl⟩), hx⟩, hk⟩
  unfold classdiffRun
  rw [hef]
  simp only [hq, hr]
  cases read a with
  | error e => rfl
  | ok l =>
    cases read b with
    | error e => rfl
    | ok r => exact status_attr T lim depth l r hattr

/-- C137: two silent runs on the same files with options that set the same attributes have the same
outcome. -/
theorem C137_attributes {ps ps' : List ArgPiece} {a b : Str} (h : Silent isInt ps a b) (h' : Silent isInt ps' a b)
    (hs : ∀ k, (∃ g ∈ piecesGiven ps, Sets g k) ↔ ∃ g ∈ piecesGiven ps', Sets g k) :
    classdiffMain negNum isInt T lim depth read other (piecesWords ps) =
      classdiffMain negNum isInt T lim depth read other (piecesWords ps') := by
  have ho : ∀ name : String, (parseOpts ((piecesGiven ps).filterMap givenOptArg)).attr name = true ↔
      ∃ g ∈ piecesGiven ps, Sets g name.toList := by
    have hmem : ∀ g ∈ piecesGiven ps, g.1 ∈ Tool.classdiff.opts := good_mem h.good
    intro name
    rw [C43_parsed]
    constructor
    · rintro ⟨x, hx, hk⟩
      obtain ⟨g, hg, hx⟩ := List.mem_filterMap.1 hx
      exact ⟨g, hg, (sets_optArg (hmem g hg) _).1 ⟨x, hx, hk⟩⟩
    · rintro ⟨g, hg, hk⟩
      obtain ⟨x, hx, hk⟩ := (sets_optArg (hmem g hg) _).2 hk
      exact ⟨x, List.mem_filterMap.2 ⟨g, hg, hx⟩, hk⟩
  rw [C137_status negNum isInt T lim depth read other h ho,
    C137_status negNum isInt T lim depth read other h' fun name => (ho name).trans (hs name.toList)]

/-- C137, the same options: how they are spelled, their order, repetitions and whether they stand before or
behind the files do not matter. -/
theorem C137_order {ps ps' : List ArgPiece} {a b : Str} (h : Silent isInt ps a b) (h' : Silent isInt ps' a b)
    (hs : ∀ g, g ∈ piecesGiven ps ↔ g ∈ piecesGiven ps') :
    classdiffMain negNum isInt T lim depth read other (piecesWords ps) =
      classdiffMain negNum isInt T lim depth read other (piecesWords ps') := by
  refine C137_attributes negNum isInt T lim depth read other h h' fun k => ?_
  simp only [hs]
end

/-- Two files for the examples. -/
def readExample (name : Str) : Res ClassInfo :=
  if name = "a".toList then .ok (classOf selfClass) else .ok (classOf { selfClass with major := 53 })

example : classdiffMain (fun _ => false) (fun _ => false) noTexts 9 9 readExample (fun _ _ _ => .ok 7)
    (["-q", "a", "b"].map String.toList) = .ok 1 := by decide +kernel

example : classdiffMain (fun _ => false) (fun _ => false) noTexts 9 9 readExample (fun _ _ _ => .ok 7)
    (["--ignore-version-u", "a", "b", "-vq"].map String.toList) = .ok 0 := by decide +kernel

example : classdiffMain (fun _ => false) (fun _ => false) noTexts 9 9 readExample (fun _ _ _ => .ok 7)
    (["-qo", "x", "a", "b", "--ignore= version-up, lines"].map String.toList) = .ok 0 := by decide +kernel

end Javatools
