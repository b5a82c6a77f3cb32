import Verif.Model.KnownArgs
import Verif.Props.ArgParse
import Verif.Props.CreateJar
/-
C159-C162: the command lines of `jarutil create`, `jarutil sign` and `manifest create`.
-/
namespace Javatools

/-! ### Command lines -/

/-- A word that looks like an option and is none, nor the abbreviation of one. -/
structure NoOption (opts : List OptSpec) (negNum : Str → Bool) (w : Str) : Prop where
  dash : ∃ c r, w = '-' :: c :: r ∧ w ≠ "--".toList ∧ (∀ o, c ≠ '-' → ¬ HasString opts o ['-', c])
  short : ∀ o s, HasString opts o s → ¬ w <+: s
  equals : ∀ p v, w = p ++ '=' :: v → ∀ o s, HasString opts o s → ¬ p <+: s
  space : ' ' ∉ w
  number : negNum w = false

/-- A part of a command line: options; an option that takes any number of arguments, behind others
in the same word, with its arguments; a word; an option that is not known. -/
inductive CmdPiece where
  | options (given : List (OptSpec × List Str)) (words : List Str)
  | many (before : List (OptSpec × List Str)) (o : OptSpec) (word first : Str) (more : List Str)
  | word (f : Str)
  | unknown (w : Str)

def CmdPiece.words : CmdPiece → List Str
  | .options _ ws => ws
  | .many _ _ w first more => w :: first :: more
  | .word f => [f]
  | .unknown w => [w]

def CmdPiece.given : CmdPiece → List (OptSpec × List Str)
  | .options g _ => g
  | .many g o _ first more => g ++ [(o, first :: more)]
  | .word _ => []
  | .unknown _ => []

/-- The part is as it has to be. -/
def CmdPiece.Good (negNum isInt : Str → Bool) (opts : List OptSpec) (plus : OptSpec → Bool) : CmdPiece → Prop
  | .options g ws => Spells opts g ws ∧ (∀ a ∈ g, Sensible isInt a) ∧
      (ws.length = 1 ∨ ∀ a ∈ g, plus a.1 = false)
  | .many g o w first more => Spells opts (g ++ [(o, [first])]) [w, first] ∧
      (∀ a ∈ g, Sensible isInt a) ∧ o.kind = .value ∧ plus o = true ∧ ∀ v ∈ more, PlainWord v
  | .word f => PlainWord f
  | .unknown w => NoOption opts negNum w

def cmdWords (ps : List CmdPiece) : List Str := ps.flatMap CmdPiece.words

def cmdGiven (ps : List CmdPiece) : List (OptSpec × List Str) := ps.flatMap CmdPiece.given

/-- The words that are not options. -/
def cmdFiles : List CmdPiece → List Str
  | [] => []
  | .word f :: ps => f :: cmdFiles ps
  | _ :: ps => cmdFiles ps

/-- The same without the first `k`, and with the options that are not known. -/
def cmdOthers : Nat → List CmdPiece → List Str
  | _, [] => []
  | 0, .word f :: ps => f :: cmdOthers 0 ps
  | k + 1, .word _ :: ps => cmdOthers k ps
  | k, .unknown w :: ps => w :: cmdOthers k ps
  | k, _ :: ps => cmdOthers k ps

/-- No word stands where it is taken for the argument of an option before it. -/
def WordsApart : List CmdPiece → Prop
  | .many _ _ _ _ _ :: .word _ :: _ => False
  | _ :: ps => WordsApart ps
  | [] => True

/-! ### Words -/

section
variable {negNum isInt : Str → Bool} {opts : List OptSpec} {plus : OptSpec → Bool}

/-- The word of an option, or of several. -/
def FirstWord (negNum : Str → Bool) (opts : List OptSpec) (w : Str) (as : List (OptSpec × List Str))
    (last : Option OptSpec) : Prop :=
  ∃ o s e, classifyArg negNum opts w = .ok (.opt (some o) s e) ∧ w ≠ "--".toList ∧
    consumeWord opts o s e = .ok (as, last)

theorem Spells.first (hg : GoodOpts opts) {acts : List (OptSpec × List Str)} {ws : List Str}
    (h : Spells opts acts ws) : ∃ w as last, FirstWord negNum opts w as last ∧
      ((last = none ∧ acts = as ∧ ws = [w]) ∨
       (∃ o, last = some o ∧ o.takes = false ∧ acts = as ++ [(o, [])] ∧ ws = [w]) ∨
       (∃ o v, last = some o ∧ o.takes = true ∧ PlainWord v ∧ acts = as ++ [(o, [v])] ∧ ws = [w, v])) := by
  cases h with
  | @flag o s h ht =>
    exact ⟨s, [], some o, ⟨o, s, none, classify_exact hg h, h.notDashes hg, rfl⟩,
      .inr (.inl ⟨o, rfl, ht, rfl, rfl⟩)⟩
  | @value o s v h ht hv =>
    exact ⟨s, [], some o, ⟨o, s, none, classify_exact hg h, h.notDashes hg, rfl⟩,
      .inr (.inr ⟨o, v, rfl, ht, hv, rfl, rfl⟩)⟩
  | @equals o s v h ht hv =>
    exact ⟨_, [(o, [v])], none, ⟨o, s, some v, classify_equals hg h, equals_notDashes,
      by rw [consumeWord, consume_takes ht, optValues_of hv]⟩, .inl ⟨rfl, rfl, rfl⟩⟩
  | @abbrevFlag o s p h ht =>
    obtain ⟨h1, h2⟩ := classify_abbrev (negNum := negNum) hg h
    exact ⟨p, [], some o, ⟨o, s, none, h1, h2, rfl⟩, .inr (.inl ⟨o, rfl, ht, rfl, rfl⟩)⟩
  | @abbrevValue o s p v h ht hv =>
    obtain ⟨h1, h2⟩ := classify_abbrev (negNum := negNum) hg h
    exact ⟨p, [], some o, ⟨o, s, none, h1, h2, rfl⟩, .inr (.inr ⟨o, v, rfl, ht, hv, rfl, rfl⟩)⟩
  | @abbrevEquals o s p v h ht hv =>
    exact ⟨_, [(o, [v])], none, ⟨o, s, some v, classify_abbrevEquals hg h, equals_notDashes,
      by rw [consumeWord, consume_takes ht, optValues_of hv]⟩, .inl ⟨rfl, rfl, rfl⟩⟩
  | @cluster fs hl hx =>
    match fs, hl, hx with
    | x :: y :: fs, hl, hx =>
      have h1 := hx x (by simp)
      have h2 := hx y (by simp)
      have hc := (short_char hg h1.1).1
      obtain ⟨init, last, e, hk⟩ := consume_cluster hg (y :: fs) x.2 (by simp) h1.2
        fun z hz => hx z (List.mem_cons_of_mem _ hz)
      have hl : last.takes = false := by
        have : last ∈ x.2 :: (y :: fs).map Prod.snd := by
          rw [e]
          simp
        rw [← List.map_cons (f := Prod.snd)] at this
        obtain ⟨z, hz, rfl⟩ := List.mem_map.1 this
        exact (hx z hz).2
      have hcl : classifyArg negNum opts ('-' :: x.1 :: (y :: fs).map Prod.fst) =
          .ok (.opt (some x.2) ['-', x.1] (some ((y :: fs).map Prod.fst))) := by
        refine classify_short hg h1.1 (by simp) ?_
        have := (short_char hg h2.1).2
        simpa using this
      have hacts : (x :: y :: fs).map (fun x => (x.2, ([] : List Str))) =
          init.map (fun o => (o, [])) ++ [(last, [])] := by
        have e' := congrArg (List.map fun o : OptSpec => (o, ([] : List Str))) e
        rw [List.map_append] at e'
        refine Eq.trans ?_ e'
        simp
      exact ⟨_, _, some last, ⟨_, _, _, hcl, by simp [hc], by rw [consumeWord]; simpa [hc] using hk⟩,
        .inr (.inl ⟨last, rfl, hl, hacts, rfl⟩)⟩
  | @clusterValue fs c o v hf hx ho ht hv =>
    match fs, hf, hx with
    | x :: fs, hf, hx =>
      have h1 := hx x (by simp)
      have hc := (short_char hg h1.1).1
      have hx' : ∀ z ∈ fs, HasString opts z.2 ['-', z.1] ∧ z.2.takes = false := fun z hz =>
        hx z (List.mem_cons_of_mem _ hz)
      have hk := consume_clusterLast hg ho fs x.2 h1.2 hx'
      have hcl : classifyArg negNum opts ('-' :: x.1 :: (fs.map Prod.fst ++ [c])) =
          .ok (.opt (some x.2) ['-', x.1] (some (fs.map Prod.fst ++ [c]))) := by
        refine classify_short hg h1.1 (by simp) ?_
        cases fs with
        | nil =>
          have := (short_char hg ho).2
          simpa using this
        | cons y fs =>
          have := (short_char hg (hx' y (by simp)).1).2
          simpa using this
      exact ⟨_, _, some o, ⟨_, _, _, hcl, by simp [hc], by rw [consumeWord]; simpa [hc] using hk⟩,
        .inr (.inr ⟨o, v, rfl, ht, hv, by simp, rfl⟩)⟩
  | @clusterAttached fs c o v hx ho ht hv hd he =>
    match fs, hx, he with
    | [], hx, he =>
      have hc := (short_char hg ho).1
      have hcl := classify_short (negNum := negNum) hg ho hv (he rfl)
      exact ⟨_, [(o, [v])], none, ⟨_, _, _, hcl, by simp [hc],
        by rw [consumeWord, consume_takes ht, optValues_of hd]⟩, .inl ⟨rfl, rfl, rfl⟩⟩
    | x :: fs, hx, he =>
      have h1 := hx x (by simp)
      have hc := (short_char hg h1.1).1
      have hx' : ∀ z ∈ fs, HasString opts z.2 ['-', z.1] ∧ z.2.takes = false := fun z hz =>
        hx z (List.mem_cons_of_mem _ hz)
      have hk := consume_clusterAttached hg ho ht hv hd fs x.2 h1.2 hx'
      have hcl : classifyArg negNum opts ('-' :: x.1 :: (fs.map Prod.fst ++ c :: v)) =
          .ok (.opt (some x.2) ['-', x.1] (some (fs.map Prod.fst ++ c :: v))) := by
        refine classify_short hg h1.1 (by simp) ?_
        cases fs with
        | nil =>
          have := (short_char hg ho).2
          simpa using this
        | cons y fs =>
          have := (short_char hg (hx' y (by simp)).1).2
          simpa using this
      exact ⟨_, _, none, ⟨_, _, _, hcl, by simp [hc], by rw [consumeWord]; simpa [hc] using hk⟩,
        .inl ⟨rfl, by simp, rfl⟩⟩

theorem NoOption.classify (hg : GoodOpts opts) {w : Str} (h : NoOption opts negNum w) :
    classifyArg negNum opts w = .ok (.opt none w none) ∧ w ≠ "--".toList := by
  obtain ⟨c, r, hw, hd, hc⟩ := h.dash
  refine ⟨?_, hd⟩
  have h1 : lookupOption opts w = none :=
    lookup_none.2 fun o ho => h.short o w ho (List.prefix_refl _)
  have h2 : ((splitEq w).bind fun x => (lookupOption opts x.1).map fun o => (o, x)) = none := by
    cases hs : splitEq w with
    | none => rfl
    | some x =>
      obtain ⟨p, e⟩ := x
      have hp := (splitFirst_parts hs).1
      have : lookupOption opts p = none :=
        lookup_none.2 fun o ho => h.equals p e hp o p ho (List.prefix_refl _)
      simp [this]
  have h3 : optionTuples opts w = [] := by
    unfold optionTuples
    split
    · rename_i r'
      split
      · rename_i p e hs
        have hp := (splitFirst_parts hs).1
        simp only [List.map_eq_nil_iff, List.filter_eq_nil_iff]
        intro x hx hpre
        exact h.equals p e hp x.2 x.1 (hasString_mem.2 hx) (List.isPrefixOf_iff_prefix.1 hpre)
      · simp only [List.map_eq_nil_iff, List.filter_eq_nil_iff]
        intro x hx hpre
        exact h.short x.2 x.1 (hasString_mem.2 hx) (List.isPrefixOf_iff_prefix.1 hpre)
    · rename_i hne
      have hcd : c ≠ '-' := by
        rintro rfl
        exact hne r hw
      rw [List.filterMap_eq_nil_iff]
      intro x hx
      have hx' : HasString opts x.2 x.1 := hasString_mem.2 hx
      have e1 : ¬ x.1 = w.take 2 := by
        intro e
        rw [hw] at e
        simp at e
        rw [e] at hx'
        exact hc _ hcd hx'
      have e2 : w.isPrefixOf x.1 = false := by
        cases hb : w.isPrefixOf x.1 with
        | false => rfl
        | true => exact absurd (List.isPrefixOf_iff_prefix.1 hb) (h.short _ _ hx')
      simp [e1, e2]
  unfold classifyArg
  rw [if_neg (by simp [hw]), h1, h2, h3]
  simp only [h.number, Bool.false_eq_true, if_false, h.space]
  rw [if_neg (by simp [hw])]

/-! ### Groups -/

/-- What a part of a command line comes to. -/
def CmdPiece.item : CmdPiece → CmdItem
  | .options g _ => .acts g
  | .many g o _ first more => .acts (g ++ [(o, first :: more)])
  | .word f => .arg f
  | .unknown w => .unknown w

/-- No argument comes next. -/
def NoArg (l : List CmdItem) : Prop := ∀ s r, l ≠ .arg s :: r

theorem leadingArgs_noArg {l : List CmdItem} (h : NoArg l) : leadingArgs l = ([], l) := by
  cases l with
  | nil => rfl
  | cons x l =>
    cases x with
    | arg s => exact absurd rfl (h s l)
    | acts as => rfl
    | unknown s => rfl
    | dashes => rfl
    | bad e => rfl

theorem leadingArgs_append (vs : List Str) {l : List CmdItem} (h : NoArg l) :
    leadingArgs (vs.map .arg ++ l) = (vs, l) := by
  induction vs with
  | nil => exact leadingArgs_noArg h
  | cons v vs ih => rw [List.map_cons, List.cons_append, leadingArgs, ih]

theorem classify_plains (hg : GoodOpts opts) (vs : List Str) (h : ∀ v ∈ vs, PlainWord v) (rest : List Str) :
    classify negNum opts (vs ++ rest) = (classify negNum opts rest).map (vs.map .arg ++ ·) := by
  induction vs with
  | nil =>
    rw [List.nil_append]
    cases classify negNum opts rest <;> rfl
  | cons v vs ih =>
    obtain ⟨h1, h2⟩ := classify_plain (negNum := negNum) hg (h v (by simp))
    rw [List.cons_append, classify_one h1 h2, ih fun v hv => h v (List.mem_cons_of_mem _ hv)]
    cases classify negNum opts rest <;> rfl

theorem group_args (vs : List Str) (ts : List Tok) :
    groupToks opts plus (vs.map .arg ++ ts) = vs.map .arg ++ groupToks opts plus ts := by
  induction vs with
  | nil => rfl
  | cons v vs ih => rw [List.map_cons, List.cons_append, groupToks, ih]; rfl

theorem FirstWord.toks {w : Str} {as : List (OptSpec × List Str)} {last : Option OptSpec}
    (h : FirstWord negNum opts w as last) : ∃ t,
      (∀ rest, classify negNum opts (w :: rest) = (classify negNum opts rest).map (t :: ·)) ∧
      ∀ ts, groupToks opts plus (t :: ts) = match (generalizing := false) last with
        | none => .acts as :: groupToks opts plus ts
        | some o' =>
          if o'.takes then
            match argsBehind (plus o') (groupToks opts plus ts) with
            | ([], _) => [.bad usageError]
            | (vs, rest) => .acts (as ++ [(o', vs)]) :: rest
          else .acts (as ++ [(o', [])]) :: groupToks opts plus ts := by
  obtain ⟨o, s, e, h1, h2, h3⟩ := h
  refine ⟨_, fun rest => classify_one h1 h2 rest, fun ts => ?_⟩
  rw [groupToks, h3]
  cases last <;> rfl

/-- A command line, as groups. -/
theorem pieces_items (hg : GoodOpts opts) {ps : List CmdPiece}
    (h : ∀ p ∈ ps, p.Good negNum isInt opts plus) (ha : WordsApart ps) :
    ∃ toks, (∀ rest, classify negNum opts (cmdWords ps ++ rest) = (classify negNum opts rest).map (toks ++ ·)) ∧
      ∀ ts, NoArg (groupToks opts plus ts) →
        groupToks opts plus (toks ++ ts) = ps.map CmdPiece.item ++ groupToks opts plus ts := by
  induction ps with
  | nil =>
    refine ⟨[], fun rest => ?_, fun ts _ => rfl⟩
    rw [cmdWords, List.flatMap_nil, List.nil_append]
    cases classify negNum opts rest <;> rfl
  | cons p ps ih =>
    have ha' : WordsApart ps := by
      cases p <;> first | exact ha | (cases ps with
        | nil => trivial
        | cons q ps => cases q <;> first | exact ha | exact ha.elim)
    obtain ⟨toks, c1, g1⟩ := ih (fun p hp => h p (List.mem_cons_of_mem _ hp)) ha'
    have hp := h p List.mem_cons_self
    have hw : ∀ rest, cmdWords (p :: ps) ++ rest = p.words ++ (cmdWords ps ++ rest) := by
      intro rest
      simp [cmdWords]
    cases p with
    | word f =>
      obtain ⟨h1, h2⟩ := classify_plain (negNum := negNum) hg hp
      refine ⟨.arg f :: toks, fun rest => ?_, fun ts ht => ?_⟩
      · rw [hw, CmdPiece.words, List.cons_append, List.nil_append, classify_one h1 h2, c1]
        cases classify negNum opts rest <;> rfl
      · rw [List.cons_append, groupToks, g1 ts ht]; rfl
    | unknown w =>
      obtain ⟨h1, h2⟩ := hp.classify hg
      refine ⟨.opt none w none :: toks, fun rest => ?_, fun ts ht => ?_⟩
      · rw [hw, CmdPiece.words, List.cons_append, List.nil_append, classify_one h1 h2, c1]
        cases classify negNum opts rest <;> rfl
      · rw [List.cons_append, groupToks, g1 ts ht]; rfl
    | options g ws =>
      obtain ⟨hs, -, hl⟩ := hp
      obtain ⟨w, as, last, hf, hc⟩ := hs.first (negNum := negNum) hg
      obtain ⟨t, t1, t2⟩ := hf.toks (plus := plus)
      rcases hc with ⟨rfl, rfl, rfl⟩ | ⟨o, rfl, ho, rfl, rfl⟩ | ⟨o, v, rfl, ho, hv, rfl, rfl⟩
      · refine ⟨t :: toks, fun rest => ?_, fun ts ht => ?_⟩
        · rw [hw, CmdPiece.words, List.cons_append, List.nil_append, t1, c1]
          cases classify negNum opts rest <;> rfl
        · rw [List.cons_append, t2, g1 ts ht]; rfl
      · refine ⟨t :: toks, fun rest => ?_, fun ts ht => ?_⟩
        · rw [hw, CmdPiece.words, List.cons_append, List.nil_append, t1, c1]
          cases classify negNum opts rest <;> rfl
        · rw [List.cons_append, t2, g1 ts ht]
          simp only [ho, Bool.false_eq_true, if_false]
          rfl
      · obtain ⟨h1, h2⟩ := classify_plain (negNum := negNum) hg hv
        have hpl : plus o = false := by
          rcases hl with hl | hl
          · simp at hl
          · exact hl (o, [v]) (by simp)
        refine ⟨t :: .arg v :: toks, fun rest => ?_, fun ts ht => ?_⟩
        · rw [hw, CmdPiece.words, List.cons_append, List.cons_append, List.nil_append, t1,
            classify_one h1 h2, c1]
          cases classify negNum opts rest <;> rfl
        · rw [List.cons_append, List.cons_append, t2, groupToks, g1 ts ht]
          simp only [ho, if_true, argsBehind, hpl, Bool.false_eq_true, if_false]
          rfl
    | many g o w first more =>
      obtain ⟨hs, -, -, hpl, hm⟩ := hp
      obtain ⟨w', as, last, hf, hc⟩ := hs.first (negNum := negNum) hg
      obtain ⟨t, t1, t2⟩ := hf.toks (plus := plus)
      rcases hc with ⟨_, _, e⟩ | ⟨_, _, _, _, e⟩ | ⟨o', v, rfl, ho, hv, e1, e2⟩
      · simp at e
      · simp at e
      · obtain ⟨e3, e4⟩ := List.append_inj' e1 rfl
        simp only [List.cons.injEq, Prod.mk.injEq, and_true] at e4 e2
        obtain ⟨rfl, rfl⟩ := e4
        obtain rfl := e3
        obtain ⟨rfl, -⟩ := e2
        have hall : ∀ x ∈ first :: more, PlainWord x := by
          intro x hx
          rcases List.mem_cons.1 hx with rfl | hx
          · exact hv
          · exact hm x hx
        refine ⟨t :: ((first :: more).map .arg ++ toks), fun rest => ?_, fun ts ht => ?_⟩
        · rw [hw, CmdPiece.words, List.cons_append, t1, classify_plains hg _ hall, c1]
          cases classify negNum opts rest <;> simp [Except.map]
        · have hn : NoArg (ps.map CmdPiece.item ++ groupToks opts plus ts) := by
            cases ps with
            | nil => exact ht
            | cons q ps =>
              cases q with
              | word f => exact absurd ha (by simp [WordsApart])
              | options g ws => intro s r; simp [CmdPiece.item]
              | many g o w f m => intro s r; simp [CmdPiece.item]
              | unknown w => intro s r; simp [CmdPiece.item]
          rw [List.cons_append, t2, List.append_assoc, group_args, g1 ts ht]
          simp only [ho, if_true, argsBehind, hpl, leadingArgs_append _ hn]
          rfl

/-! ### The loop -/

/-- The same as the loop, one word at a time. -/
def cmdFlow (isInt : Str → Bool) : Nat → List CmdItem → Res Known
  | left, [] => if left = 0 then .ok ([], []) else .error usageError
  | 0, .arg s :: rest => (cmdFlow isInt 0 rest).map (Known.before [] [s])
  | left + 1, .arg s :: rest => (cmdFlow isInt left rest).map (Known.before [.files [s]] [])
  | _, .bad e :: _ => .error e
  | left, .unknown s :: rest => (cmdFlow isInt left rest).map (Known.before [] [s])
  | left, .acts as :: rest =>
    match takeActions isInt as with
    | .error e => .error e
    | .ok evs => (cmdFlow isInt left rest).map (Known.before evs [])
  | left, .dashes :: rest => knownTail left [] (.dashes :: rest)

theorem before_before (k : Known) (a b : List ArgEvent) (x y : List Str) :
    Known.before a x (Known.before b y k) = Known.before (a ++ b) (x ++ y) k := by
  simp [Known.before]

theorem map_before (r : Res Known) (a b : List ArgEvent) (x y : List Str) :
    (r.map (Known.before b y)).map (Known.before a x) = r.map (Known.before (a ++ b) (x ++ y)) := by
  cases r with
  | error e => rfl
  | ok k => simp only [Except.map, before_before]

theorem map_before_nil (r : Res Known) : r.map (Known.before [] []) = r := by
  cases r <;> rfl

theorem knownLoop_flow (items : List CmdItem) (hd : .dashes ∉ items) (left : Nat) (run : List Str) :
    knownLoop isInt left run items =
      (cmdFlow isInt (left - run.length) items).map
        (Known.before (oneEach (run.take left)) (run.drop left)) := by
  induction items generalizing left run with
  | nil =>
    simp only [knownLoop, knownTail, cmdFlow]
    by_cases hl : run.length < left
    · rw [if_pos hl, if_neg (by omega)]; rfl
    · rw [if_neg hl, if_pos (by omega)]
      simp [Except.map, Known.before]
  | cons x items ih =>
    have hd' : .dashes ∉ items := fun h => hd (List.mem_cons_of_mem _ h)
    cases x with
    | bad e =>
      rw [knownLoop]
      cases left - run.length <;> rfl
    | dashes => exact absurd List.mem_cons_self hd
    | unknown s =>
      rw [knownLoop, ih hd' (left - run.length) []]
      simp only [cmdFlow, List.length_nil, Nat.sub_zero, List.take_nil, List.drop_nil, oneEach, List.map_nil,
        map_before_nil]
      rw [map_before]
      simp
    | acts as =>
      rw [knownLoop]
      simp only [cmdFlow]
      cases takeActions isInt as with
      | error e => rfl
      | ok evs =>
        simp only
        rw [ih hd' (left - run.length) []]
        simp only [List.length_nil, Nat.sub_zero, List.take_nil, List.drop_nil, oneEach, List.map_nil,
          map_before_nil]
        rw [map_before]
        simp
    | arg s =>
      rw [knownLoop, ih hd']
      rw [List.length_append, List.length_singleton]
      by_cases hl : left ≤ run.length
      · have e1 : left - (run.length + 1) = 0 := by omega
        have e2 : left - run.length = 0 := by omega
        rw [e1, e2, cmdFlow, map_before, List.take_append_of_le_length hl, List.drop_append_of_le_length hl]
        simp
      · have e2 : left - run.length = (left - (run.length + 1)) + 1 := by omega
        rw [e2, cmdFlow, map_before]
        have e3 : (run ++ [s]).take left = run ++ [s] := List.take_of_length_le (by simp; omega)
        have e4 : run.take left = run := List.take_of_length_le (by omega)
        have e5 : (run ++ [s]).drop left = [] := List.drop_of_length_le (by simp; omega)
        have e6 : run.drop left = [] := List.drop_of_length_le (by omega)
        rw [e3, e4, e5, e6]
        simp [oneEach]

/-- The options among the actions. -/
def optEvents : List ArgEvent → List (OptSpec × List Str)
  | [] => []
  | .opt o args :: evs => (o, args) :: optEvents evs
  | .files _ :: evs => optEvents evs

theorem optEvents_append (a b : List ArgEvent) : optEvents (a ++ b) = optEvents a ++ optEvents b := by
  induction a with
  | nil => rfl
  | cons x a ih => cases x <;> simp [optEvents, ih]

theorem optEvents_given (g : List (OptSpec × List Str)) : optEvents (givenEvents g) = g := by
  induction g with
  | nil => rfl
  | cons x g ih =>
    obtain ⟨o, a⟩ := x
    have : givenEvents ((o, a) :: g) = .opt o a :: givenEvents g := rfl
    rw [this, optEvents, ih]

theorem eventFiles_append (a b : List ArgEvent) : eventFiles (a ++ b) = eventFiles a ++ eventFiles b := by
  simp [eventFiles]

theorem eventFiles_given (g : List (OptSpec × List Str)) : eventFiles (givenEvents g) = [] := by
  induction g with
  | nil => rfl
  | cons x g ih => exact ih

theorem CmdPiece.Good.sensible {p : CmdPiece} (h : p.Good negNum isInt opts plus) :
    ∀ a ∈ p.given, Sensible isInt a := by
  cases p with
  | options g ws => exact h.2.1
  | word f => simp [CmdPiece.given]
  | unknown w => simp [CmdPiece.given]
  | many g o w first more =>
    intro a ha
    rcases List.mem_append.1 ha with ha | ha
    · exact h.2.1 a ha
    · rw [List.mem_singleton.1 ha]
      exact ⟨by rw [h.2.2.1]; simp, by rw [h.2.2.1]; simp⟩

/-- The command line has its words, its options and what is left over. -/
theorem flow_pieces {ps : List CmdPiece} (h : ∀ p ∈ ps, p.Good negNum isInt opts plus) (left : Nat) :
    ((cmdFiles ps).length < left ∧ cmdFlow isInt left (ps.map CmdPiece.item) = .error usageError) ∨
    (left ≤ (cmdFiles ps).length ∧ ∃ evs, cmdFlow isInt left (ps.map CmdPiece.item) =
      .ok (evs, cmdOthers left ps) ∧ eventFiles evs = (cmdFiles ps).take left ∧
      optEvents evs = cmdGiven ps) := by
  induction ps generalizing left with
  | nil =>
    simp only [cmdFiles, List.length_nil, List.map_nil, cmdFlow]
    by_cases hl : left = 0
    · subst hl
      exact .inr ⟨Nat.le_refl _, [], rfl, rfl, rfl⟩
    · exact .inl ⟨by omega, by rw [if_neg hl]⟩
  | cons p ps ih =>
    have hs := (h p List.mem_cons_self).sensible
    have ih := ih fun p hp => h p (List.mem_cons_of_mem _ hp)
    have hacts : ∀ g, p.item = .acts g → p.given = g → cmdFiles (p :: ps) = cmdFiles ps →
        cmdOthers left (p :: ps) = cmdOthers left ps →
        ((cmdFiles (p :: ps)).length < left ∧
          cmdFlow isInt left ((p :: ps).map CmdPiece.item) = .error usageError) ∨
        (left ≤ (cmdFiles (p :: ps)).length ∧ ∃ evs, cmdFlow isInt left ((p :: ps).map CmdPiece.item) =
          .ok (evs, cmdOthers left (p :: ps)) ∧ eventFiles evs = (cmdFiles (p :: ps)).take left ∧
          optEvents evs = cmdGiven (p :: ps)) := by
      intro g h1 h2 h3 h4
      subst h2
      rw [h3, h4, List.map_cons, h1]
      have e : ∀ r, cmdFlow isInt left (.acts p.given :: r) =
          (cmdFlow isInt left r).map (Known.before (givenEvents p.given) []) := by
        intro r
        cases left <;> simp only [cmdFlow, takeActions_sensible hs]
      rw [e]
      rcases ih left with ⟨i1, i2⟩ | ⟨i1, evs, i2, i3, i4⟩
      · exact .inl ⟨i1, by rw [i2]; rfl⟩
      · refine .inr ⟨i1, givenEvents p.given ++ evs, by rw [i2]; rfl, ?_, ?_⟩
        · rw [eventFiles_append, eventFiles_given, i3]; rfl
        · rw [optEvents_append, optEvents_given, i4]; rfl
    cases p with
    | options g ws => exact hacts g rfl rfl rfl (by cases left <;> rfl)
    | many g o w first more => exact hacts _ rfl rfl rfl (by cases left <;> rfl)
    | unknown w =>
      have e : cmdFlow isInt left ((CmdPiece.unknown w :: ps).map CmdPiece.item) =
          (cmdFlow isInt left (ps.map CmdPiece.item)).map (Known.before [] [w]) := by
        rw [List.map_cons, CmdPiece.item]
        cases left <;> rfl
      have e2 : cmdOthers left (.unknown w :: ps) = w :: cmdOthers left ps := by cases left <;> rfl
      rw [e, e2]
      rcases ih left with ⟨i1, i2⟩ | ⟨i1, evs, i2, i3, i4⟩
      · exact .inl ⟨i1, by rw [i2]; rfl⟩
      · exact .inr ⟨i1, evs, by rw [i2]; rfl, i3, i4⟩
    | word f =>
      rw [List.map_cons, CmdPiece.item, cmdFiles]
      cases left with
      | zero =>
        rcases ih 0 with ⟨i1, i2⟩ | ⟨i1, evs, i2, i3, i4⟩
        · omega
        · refine .inr ⟨Nat.zero_le _, evs, by rw [cmdFlow, i2]; rfl, by simpa using i3, i4⟩
      | succ left =>
        rcases ih left with ⟨i1, i2⟩ | ⟨i1, evs, i2, i3, i4⟩
        · exact .inl ⟨by simpa using i1, by rw [cmdFlow, i2]; rfl⟩
        · refine .inr ⟨by simpa using i1, .files [f] :: evs, by rw [cmdFlow, i2]; rfl, ?_, i4⟩
          rw [List.take_succ_cons, ← i3]
          rfl

theorem pieces_noDashes (ps : List CmdPiece) : CmdItem.dashes ∉ ps.map CmdPiece.item := by
  intro h
  obtain ⟨p, -, hp⟩ := List.mem_map.1 h
  cases p <;> simp [CmdPiece.item] at hp

/-- What `parse_known_args` makes of a command line. -/
theorem known_pieces (hg : GoodOpts opts) {ps : List CmdPiece}
    (h : ∀ p ∈ ps, p.Good negNum isInt opts plus) (ha : WordsApart ps) (count : Nat) :
    ((cmdFiles ps).length < count ∧
      parseKnown negNum isInt opts plus count (cmdWords ps) = .error usageError) ∨
    (count ≤ (cmdFiles ps).length ∧ ∃ evs, parseKnown negNum isInt opts plus count (cmdWords ps) =
      .ok (evs, cmdOthers count ps) ∧ eventFiles evs = (cmdFiles ps).take count ∧
      optEvents evs = cmdGiven ps) := by
  obtain ⟨toks, h1, h2⟩ := pieces_items hg h ha
  have c := h1 []
  have g := h2 [] (by intro s r; simp [groupToks])
  rw [List.append_nil] at c
  rw [List.append_nil, groupToks, List.append_nil] at g
  have e : parseKnown negNum isInt opts plus count (cmdWords ps) =
      cmdFlow isInt count (ps.map CmdPiece.item) := by
    unfold parseKnown
    rw [c, classify]
    simp only [Except.map, List.append_nil, g]
    rw [knownLoop_flow _ (pieces_noDashes ps)]
    simp [oneEach, map_before_nil]
  rw [e]
  exact flow_pieces h count

/-! ### Behind `--` -/

/-- The command line is empty, or the last part is not a word. -/
def EndsInOption : List CmdPiece → Prop
  | [] => True
  | [.word _] => False
  | _ :: ps => EndsInOption ps

theorem loop_pieces {ps : List CmdPiece} (h : ∀ p ∈ ps, p.Good negNum isInt opts plus)
    (he : EndsInOption ps) (hn : ps ≠ []) (tail : List CmdItem) (left : Nat) (run : List Str) :
    ∃ evs, knownLoop isInt left run (ps.map CmdPiece.item ++ tail) =
      (knownLoop isInt (left - (run ++ cmdFiles ps).length) [] tail).map
        (Known.before evs (run.drop left ++ cmdOthers (left - run.length) ps)) ∧
      eventFiles evs = (run ++ cmdFiles ps).take left ∧ optEvents evs = cmdGiven ps := by
  induction ps generalizing left run with
  | nil => exact absurd rfl hn
  | cons p ps ih =>
    have hs := (h p List.mem_cons_self).sensible
    have ih := ih fun p hp => h p (List.mem_cons_of_mem _ hp)
    have hone : ∀ fs : List Str, eventFiles (oneEach fs) = fs ∧ optEvents (oneEach fs) = [] := by
      intro fs
      induction fs with
      | nil => exact ⟨rfl, rfl⟩
      | cons f fs ih =>
        refine ⟨?_, ih.2⟩
        have : eventFiles (oneEach (f :: fs)) = f :: eventFiles (oneEach fs) := rfl
        rw [this, ih.1]
    -- an option, with what it brings
    have step : ∀ (evs0 : List ArgEvent) (xs : List Str),
        (∀ r, knownLoop isInt left run (p.item :: r) = (knownLoop isInt (left - run.length) [] r).map
          (Known.before (oneEach (run.take left) ++ evs0) (run.drop left ++ xs))) →
        (∀ k, cmdOthers k (p :: ps) = xs ++ cmdOthers k ps) → cmdFiles (p :: ps) = cmdFiles ps →
        eventFiles evs0 = [] → optEvents evs0 = p.given → EndsInOption ps →
        ∃ evs, knownLoop isInt left run ((p :: ps).map CmdPiece.item ++ tail) =
          (knownLoop isInt (left - (run ++ cmdFiles (p :: ps)).length) [] tail).map
            (Known.before evs (run.drop left ++ cmdOthers (left - run.length) (p :: ps))) ∧
          eventFiles evs = (run ++ cmdFiles (p :: ps)).take left ∧ optEvents evs = cmdGiven (p :: ps) := by
      intro evs0 xs h1 h2 h3 h4 h5 h6
      rw [h2, h3, List.map_cons, List.cons_append, h1]
      cases ps with
      | nil =>
        refine ⟨oneEach (run.take left) ++ evs0, ?_, ?_, ?_⟩
        · have : ∀ k, cmdOthers k [] = [] := by intro k; cases k <;> rfl
          simp [cmdFiles, this]
        · rw [eventFiles_append, (hone _).1, h4]; simp [cmdFiles]
        · rw [optEvents_append, (hone _).2, h5]; simp [cmdGiven]
      | cons q ps =>
        obtain ⟨evs, i1, i2, i3⟩ := ih h6 (by simp) (left - run.length) []
        refine ⟨oneEach (run.take left) ++ evs0 ++ evs, ?_, ?_, ?_⟩
        · rw [i1, map_before]
          simp [Nat.sub_sub]
        · rw [eventFiles_append, eventFiles_append, (hone _).1, h4, i2, List.append_nil, List.nil_append,
            List.take_append]
        · rw [optEvents_append, optEvents_append, (hone _).2, h5, i3]
          simp [cmdGiven]
    have ends : (∀ f, p ≠ .word f) → EndsInOption ps := by
      intro hp
      cases p with
      | word f => exact absurd rfl (hp f)
      | options g ws => cases ps <;> exact he
      | many g o w f m => cases ps <;> exact he
      | unknown w => cases ps <;> exact he
    cases p with
    | options g ws =>
      refine step (givenEvents g) [] (fun r => ?_) (fun k => by cases k <;> rfl) rfl (eventFiles_given g)
        (optEvents_given g) (ends (by simp))
      have hs' : takeActions isInt g = .ok (givenEvents g) := takeActions_sensible hs
      rw [CmdPiece.item, knownLoop, hs', List.append_nil]
    | many g o w first more =>
      refine step (givenEvents (g ++ [(o, first :: more)])) [] (fun r => ?_) (fun k => by cases k <;> rfl)
        rfl (eventFiles_given _) (optEvents_given _) (ends (by simp))
      have hs' : takeActions isInt (g ++ [(o, first :: more)]) = .ok (givenEvents _) := takeActions_sensible hs
      rw [CmdPiece.item, knownLoop, hs', List.append_nil]
    | unknown w =>
      refine step [] [w] (fun r => ?_) (fun k => by cases k <;> rfl) rfl rfl rfl (ends (by simp))
      rw [CmdPiece.item, knownLoop, List.append_nil]
    | word f =>
      cases ps with
      | nil => exact he.elim
      | cons q ps =>
        obtain ⟨evs, i1, i2, i3⟩ := ih he (by simp) left (run ++ [f])
        refine ⟨evs, ?_, ?_, ?_⟩
        · rw [List.map_cons, List.cons_append, CmdPiece.item, knownLoop, i1]
          have e1 : (run ++ [f] ++ cmdFiles (q :: ps)).length = (run ++ cmdFiles (.word f :: q :: ps)).length := by
            rw [cmdFiles.eq_2]; simp
          have e2 : (run ++ [f]).drop left ++ cmdOthers (left - (run ++ [f]).length) (q :: ps) =
              run.drop left ++ cmdOthers (left - run.length) (.word f :: q :: ps) := by
            by_cases hl : left ≤ run.length
            · have : left - run.length = 0 := by omega
              have h2 : left - (run ++ [f]).length = 0 := by simp; omega
              rw [this, h2, List.drop_append_of_le_length hl, cmdOthers]
              simp
            · have e2 : left - run.length = (left - (run ++ [f]).length) + 1 := by simp; omega
              rw [e2, List.drop_of_length_le (by simp; omega), List.drop_of_length_le (by omega), cmdOthers]
          rw [e1, e2]
        · rw [i2, cmdFiles.eq_2]; simp
        · rw [i3]; rfl

theorem knownLoop_args (vs : List Str) (tail : List CmdItem) (left : Nat) (run : List Str) :
    knownLoop isInt left run (vs.map .arg ++ tail) = knownLoop isInt left (run ++ vs) tail := by
  induction vs generalizing run with
  | nil => simp
  | cons v vs ih => rw [List.map_cons, List.cons_append, knownLoop, ih]; simp

/-- What `parse_known_args` makes of a command line with `--` in it: `ps` ends in an option, and
`run` are the words between it and `--`. -/
theorem known_dashes (hg : GoodOpts opts) {ps : List CmdPiece}
    (h : ∀ p ∈ ps, p.Good negNum isInt opts plus) {run : List Str} (hr : ∀ f ∈ run, PlainWord f)
    (ha : WordsApart (ps ++ run.map .word)) (he : EndsInOption ps) (behind : List Str) (count : Nat) :
    ∃ evs, eventFiles evs = (cmdFiles ps).take count ∧ optEvents evs = cmdGiven ps ∧
      parseKnown negNum isInt opts plus count (cmdWords ps ++ run ++ "--".toList :: behind) =
        (knownTail (count - (cmdFiles ps).length) run (.dashes :: behind.map .arg)).map
          (Known.before evs (cmdOthers count ps)) := by
  have hall : ∀ p ∈ ps ++ run.map CmdPiece.word, p.Good negNum isInt opts plus := by
    intro p hp
    rcases List.mem_append.1 hp with hp | hp
    · exact h p hp
    · obtain ⟨f, hf, rfl⟩ := List.mem_map.1 hp
      exact hr f hf
  obtain ⟨toks, h1, h2⟩ := pieces_items hg hall ha
  have hw : cmdWords (ps ++ run.map CmdPiece.word) = cmdWords ps ++ run := by
    have : (run.map CmdPiece.word).flatMap CmdPiece.words = run := by
      clear hr ha h1 h2 hall
      induction run with
      | nil => rfl
      | cons f run ih => rw [List.map_cons, List.flatMap_cons, ih]; rfl
    simp [cmdWords, this]
  have hi : (ps ++ run.map CmdPiece.word).map CmdPiece.item = ps.map CmdPiece.item ++ run.map .arg := by
    rw [List.map_append, List.map_map]; rfl
  have hb : groupToks opts plus (.dashes :: behind.map .arg) = .dashes :: behind.map .arg := by
    have := group_args (opts := opts) (plus := plus) behind []
    rw [List.append_nil] at this
    rw [groupToks, this, groupToks, List.append_nil]
  have g := h2 (.dashes :: behind.map .arg) (by rw [hb]; intro s r; simp)
  rw [hi, hb] at g
  have e : parseKnown negNum isInt opts plus count (cmdWords ps ++ run ++ "--".toList :: behind) =
      knownLoop isInt count [] (ps.map CmdPiece.item ++ (run.map .arg ++ .dashes :: behind.map .arg)) := by
    unfold parseKnown
    rw [← hw, h1, classify, if_pos rfl]
    simp only [Except.map, g]
    rw [List.append_assoc]
  rw [e]
  by_cases hn : ps = []
  · subst hn
    refine ⟨[], by simp [eventFiles, cmdFiles], rfl, ?_⟩
    have : cmdOthers count [] = [] := by cases count <;> rfl
    rw [List.map_nil, List.nil_append, knownLoop_args, List.nil_append, this, map_before_nil]
    rfl
  · obtain ⟨evs, i1, i2, i3⟩ := loop_pieces h he hn (run.map .arg ++ .dashes :: behind.map .arg) count []
    refine ⟨evs, by simpa using i2, i3, ?_⟩
    rw [i1, knownLoop_args]
    simp [knownLoop]

/-! ### What the options hold -/

/-- The arguments that are given to an option, for each of its uses. -/
def givenTo (given : List (OptSpec × List Str)) (o : OptSpec) : List (List Str) :=
  (given.filter fun g => decide (g.1 = o)).map Prod.snd

theorem usesOf_events (evs : List ArgEvent) (o : OptSpec) : usesOf evs o = givenTo (optEvents evs) o := by
  induction evs with
  | nil => rfl
  | cons ev evs ih =>
    cases ev with
    | files fs => exact ih
    | opt o' args =>
      have e : usesOf (.opt o' args :: evs) o = (if o' = o then [args] else []) ++ usesOf evs o := by
        unfold usesOf
        rw [List.filterMap_cons]
        by_cases h : o' = o <;> simp [h]
      rw [e, ih, optEvents, givenTo, givenTo, List.filter_cons]
      by_cases h : o' = o <;> simp [h]

theorem Spells.args {acts : List (OptSpec × List Str)} {ws : List Str} (h : Spells opts acts ws) :
    ∀ a ∈ acts, a.1.takes = true → ∃ v, a.2 = [v] := by
  intro a ha ht
  cases h with
  | flag _ h => simp only [List.mem_singleton] at ha; subst ha; simp [h] at ht
  | value _ _ _ => simp only [List.mem_singleton] at ha; subst ha; exact ⟨_, rfl⟩
  | equals _ _ _ => simp only [List.mem_singleton] at ha; subst ha; exact ⟨_, rfl⟩
  | abbrevFlag _ h => simp only [List.mem_singleton] at ha; subst ha; simp [h] at ht
  | abbrevValue _ _ _ => simp only [List.mem_singleton] at ha; subst ha; exact ⟨_, rfl⟩
  | abbrevEquals _ _ _ => simp only [List.mem_singleton] at ha; subst ha; exact ⟨_, rfl⟩
  | cluster _ h =>
    obtain ⟨x, hx, rfl⟩ := List.mem_map.1 ha
    simp [(h x hx).2] at ht
  | clusterValue _ h _ _ _ =>
    rcases List.mem_append.1 ha with ha | ha
    · obtain ⟨x, hx, rfl⟩ := List.mem_map.1 ha
      simp [(h x hx).2] at ht
    · rw [List.mem_singleton.1 ha]; exact ⟨_, rfl⟩
  | clusterAttached h _ _ _ _ _ =>
    rcases List.mem_append.1 ha with ha | ha
    · obtain ⟨x, hx, rfl⟩ := List.mem_map.1 ha
      simp [(h x hx).2] at ht
    · rw [List.mem_singleton.1 ha]; exact ⟨_, rfl⟩

theorem given_args {ps : List CmdPiece} (h : ∀ p ∈ ps, p.Good negNum isInt opts plus) :
    ∀ a ∈ cmdGiven ps, a.1.takes = true → plus a.1 = false → ∃ v, a.2 = [v] := by
  intro a ha ht hp
  obtain ⟨p, hp1, hp2⟩ := List.mem_flatMap.1 ha
  have hgood := h p hp1
  cases p with
  | word f => simp [CmdPiece.given] at hp2
  | unknown w => simp [CmdPiece.given] at hp2
  | options g ws => exact hgood.1.args a hp2 ht
  | many g o w first more =>
    rcases List.mem_append.1 hp2 with hp2 | hp2
    · exact hgood.1.args a (List.mem_append_left _ hp2) ht
    · rw [List.mem_singleton.1 hp2] at hp
      rw [hgood.2.2.2.1] at hp
      exact absurd hp (by simp)

theorem givenTo_single {given : List (OptSpec × List Str)} {o : OptSpec}
    (h : ∀ a ∈ given, a.1 = o → ∃ v, a.2 = [v]) : ∃ vs : List Str, givenTo given o = vs.map fun v => [v] := by
  induction given with
  | nil => exact ⟨[], rfl⟩
  | cons a given ih =>
    obtain ⟨vs, hv⟩ := ih fun a ha => h a (List.mem_cons_of_mem _ ha)
    by_cases ho : a.1 = o
    · obtain ⟨v, hv'⟩ := h a List.mem_cons_self ho
      refine ⟨v :: vs, ?_⟩
      rw [givenTo, List.filter_cons, if_pos (by simpa using ho), List.map_cons, List.map_cons, hv', ← hv]
      rfl
    · refine ⟨vs, ?_⟩
      rw [givenTo, List.filter_cons, if_neg (by simpa using ho), ← hv]
      rfl

theorem stored_last {ps : List CmdPiece} (h : ∀ p ∈ ps, p.Good negNum isInt opts plus)
    {evs : List ArgEvent} (he : optEvents evs = cmdGiven ps) {o : OptSpec} (ht : o.takes = true)
    (hp : plus o = false) : stored evs o = (givenTo (cmdGiven ps) o).flatten.getLast? := by
  obtain ⟨vs, hv⟩ := givenTo_single (given := cmdGiven ps) (o := o) (by
    intro a ha e
    subst e
    exact given_args h a ha ht hp)
  rw [stored, usesOf_events, he, hv]
  have : (vs.map fun v => [v]).flatten = vs := by
    clear hv
    induction vs with
    | nil => rfl
    | cons v vs ih => rw [List.map_cons, List.flatten_cons, ih]; rfl
  rw [this, List.getLast?_map]
  cases vs.getLast? <;> rfl

/-- The options that are not known. -/
def cmdUnknown : List CmdPiece → List Str
  | [] => []
  | .unknown w :: ps => w :: cmdUnknown ps
  | _ :: ps => cmdUnknown ps

theorem cmdOthers_nil (k : Nat) (ps : List CmdPiece) :
    cmdOthers k ps = [] ↔ (cmdFiles ps).length ≤ k ∧ cmdUnknown ps = [] := by
  induction ps generalizing k with
  | nil => cases k <;> simp [cmdOthers, cmdFiles, cmdUnknown]
  | cons p ps ih =>
    cases p with
    | word f => cases k <;> simp [cmdOthers, cmdFiles, cmdUnknown, ih]
    | options g ws => cases k <;> exact ih _
    | many g o w f m => cases k <;> exact ih _
    | unknown w => cases k <;> simp [cmdOthers, cmdUnknown]

/-- What `parse_args` makes of a command line. -/
theorem exactly_pieces (hg : GoodOpts opts) {ps : List CmdPiece}
    (h : ∀ p ∈ ps, p.Good negNum isInt opts plus) (ha : WordsApart ps) (count : Nat) :
    (¬ ((cmdFiles ps).length = count ∧ cmdUnknown ps = []) ∧
      parseExactly negNum isInt opts plus count (cmdWords ps) = .error usageError) ∨
    ((cmdFiles ps).length = count ∧ cmdUnknown ps = [] ∧
      ∃ evs, parseExactly negNum isInt opts plus count (cmdWords ps) = .ok evs ∧
        eventFiles evs = cmdFiles ps ∧ optEvents evs = cmdGiven ps) := by
  rcases known_pieces hg h ha count with ⟨h1, h2⟩ | ⟨h1, evs, h2, h3, h4⟩
  · exact .inl ⟨fun h => by omega, by rw [parseExactly, h2]⟩
  · by_cases hc : cmdOthers count ps = []
    · obtain ⟨c1, c2⟩ := (cmdOthers_nil _ _).1 hc
      refine .inr ⟨by omega, c2, evs, by rw [parseExactly, h2, hc], ?_, h4⟩
      rw [h3, List.take_of_length_le c1]
    · refine .inl ⟨fun h => hc ((cmdOthers_nil _ _).2 ⟨by omega, h.2⟩), ?_⟩
      rw [parseExactly, h2]
      obtain ⟨x, xs, hx⟩ := List.exists_cons_of_ne_nil hc
      rw [hx]
end

theorem good_of_strings {opts : List OptSpec} (h1 : ((optionStrings opts).map Prod.fst).Nodup)
    (h2 : ∀ o ∈ opts, ∀ s ∈ o.strings, goodString s = true) : GoodOpts opts :=
  ⟨h1, fun o s h => goodString_shape (h2 o h.1 s h.2)⟩

theorem jarCreate_good : GoodOpts jarCreateOpts := good_of_strings (by decide +kernel) (by decide +kernel)

theorem jarSign_good : GoodOpts jarSignOpts := good_of_strings (by decide +kernel) (by decide +kernel)

theorem manifestCreate_good : GoodOpts manifestCreateOpts :=
  good_of_strings (by decide +kernel) (by decide +kernel)

/-! ### C159: the paths that are packed -/

section
variable {negNum isInt : Str → Bool}

/-- The part is as it has to be, on the command line of `jarutil create`. -/
abbrev CreatePiece (negNum isInt : Str → Bool) (p : CmdPiece) : Prop :=
  p.Good negNum isInt jarCreateOpts fun _ => false

/-- The first word names the archive. The other words, and the options that are not known, are the
paths that are packed. Without a word there is only an error message. -/
def PacksPaths (W : World) (ps : List CmdPiece) (r : Res (Str × Zip)) : Prop :=
  match cmdFiles ps with
  | [] => r = .error usageError
  | jar :: _ => r = (createJar W (cmdOthers 1 ps)).map (jar, ·)

theorem apart_create {ps : List CmdPiece} {opts : List OptSpec} (h : ∀ p ∈ ps,
    p.Good negNum isInt opts fun _ => false) : WordsApart ps := by
  induction ps with
  | nil => trivial
  | cons p ps ih =>
    have ih := ih fun p hp => h p (List.mem_cons_of_mem _ hp)
    cases p with
    | word f => exact ih
    | options g ws => exact ih
    | unknown w => exact ih
    | many g o w f m => exact absurd (h _ List.mem_cons_self).2.2.2.1 (by simp)

/-- C159: the words of a command line without `--`, whatever the order. -/
theorem C159_words (W : World) {ps : List CmdPiece} (h : ∀ p ∈ ps, CreatePiece negNum isInt p) :
    PacksPaths W ps (jarCreateRun negNum isInt W (cmdWords ps)) := by
  unfold PacksPaths jarCreateRun
  rcases known_pieces jarCreate_good h (apart_create h) 1 with ⟨h1, h2⟩ | ⟨h1, evs, h2, h3, h4⟩
  · rw [h2]
    cases hf : cmdFiles ps with
    | nil => rfl
    | cons f fs => rw [hf] at h1; simp at h1
  · rw [h2]
    cases hf : cmdFiles ps with
    | nil => rw [hf] at h1; simp at h1
    | cons f fs =>
      rw [hf] at h3
      simp only [h3, List.take_succ_cons, List.take_zero]
      cases createJar W (cmdOthers 1 ps) <;> rfl

/-- C159 as stated: behind `--` every word is one of these words. -/
def C159_full : Prop :=
  ∀ (negNum isInt : Str → Bool) (W : World) (ps : List CmdPiece) (behind : List Str),
    (∀ p ∈ ps, CreatePiece negNum isInt p) →
    PacksPaths W (ps ++ behind.map .word) (jarCreateRun negNum isInt W (cmdWords ps ++ "--".toList :: behind))

/-- C159, exactly: `ps` ends in an option, `run` are the words between it and `--`. When there is
a word in front of the option, or more than one behind it, `--` is itself taken for a path. -/
theorem C159_exact (W : World) {ps : List CmdPiece} (h : ∀ p ∈ ps, CreatePiece negNum isInt p)
    (he : EndsInOption ps) {run : List Str} (hr : ∀ f ∈ run, PlainWord f) (behind : List Str) :
    PacksPaths W (ps ++ (run ++ (if cmdFiles ps ≠ [] ∨ 2 ≤ run.length then ["--".toList] else []) ++
        behind).map .word)
      (jarCreateRun negNum isInt W (cmdWords ps ++ run ++ "--".toList :: behind)) := by
  have hap : WordsApart (ps ++ run.map CmdPiece.word) := by
    refine apart_create (negNum := negNum) (isInt := isInt) (opts := jarCreateOpts) fun p hp => ?_
    rcases List.mem_append.1 hp with hp | hp
    · exact h p hp
    · obtain ⟨f, hf, rfl⟩ := List.mem_map.1 hp
      exact hr f hf
  obtain ⟨evs, h1, h2, h3⟩ := known_dashes jarCreate_good h hr hap he behind 1
  have hfiles : ∀ ws : List Str, cmdFiles (ps ++ ws.map CmdPiece.word) = cmdFiles ps ++ ws := by
    intro ws
    clear h he hap h1 h2 h3
    induction ps with
    | nil =>
      induction ws with
      | nil => rfl
      | cons w ws ih => rw [List.map_cons, List.nil_append, cmdFiles]; simpa [cmdFiles] using ih
    | cons p ps ih => cases p <;> simp [cmdFiles, ih]
  have hothers : ∀ (ws : List Str) (k : Nat), cmdOthers k (ps ++ ws.map CmdPiece.word) =
      cmdOthers k ps ++ ws.drop (k - (cmdFiles ps).length) := by
    intro ws k
    clear h he hap h1 h2 h3 hfiles
    induction ps generalizing k with
    | nil =>
      induction ws generalizing k with
      | nil => cases k <;> simp [cmdOthers]
      | cons w ws ih =>
        cases k with
        | zero => have := ih 0; simp [cmdOthers, cmdFiles] at this ⊢; exact this
        | succ k => have := ih k; simp [cmdOthers, cmdFiles] at this ⊢; exact this
    | cons p ps ih =>
      cases p <;> cases k <;> simp [cmdFiles, cmdOthers, ih]
  unfold PacksPaths jarCreateRun
  rw [h3, hfiles, hothers]
  have hlead : (leadingArgs (behind.map .arg)).1 = behind := by
    have := leadingArgs_append behind (l := []) (by intro s r; simp)
    rw [List.append_nil] at this
    rw [this]
  unfold knownTail
  simp only [hlead]
  cases hc : cmdFiles ps with
  | cons f fs =>
    rw [hc] at h1
    have e0 : 1 - (f :: fs).length = 0 := by simp
    rw [if_pos (.inl (by simp)), e0, if_pos (.inl rfl)]
    simp only [Except.map, Known.before, oneEach, List.take_zero, List.map_nil, List.append_nil, List.drop_zero, h1,
      List.take_succ_cons, List.cons_append, List.append_assoc, List.nil_append]
    cases createJar W _ <;> rfl
  | nil =>
    rw [hc] at h1
    have h1' : eventFiles evs = [] := by simpa using h1
    simp only [List.length_nil, Nat.sub_zero, Nat.one_ne_zero, false_or, ne_eq, not_true_eq_false,
      List.nil_append]
    by_cases hl : 2 ≤ run.length
    · rw [if_pos hl, if_pos (show 1 < run.length by omega)]
      obtain ⟨f, run', rfl⟩ : ∃ f run', run = f :: run' := by
        cases run with
        | nil => simp at hl
        | cons f r => exact ⟨f, r, rfl⟩
      simp only [Except.map, Known.before, List.take_succ_cons, List.take_zero, List.drop_succ_cons, List.drop_zero,
        eventFiles_append, h1', List.cons_append, List.nil_append, List.append_assoc, oneEach, List.map_cons,
        List.map_nil]
      simp only [eventFiles, List.flatMap_cons, List.flatMap_nil, List.append_nil]
      cases createJar W _ <;> rfl
    · rw [if_neg hl, if_neg (show ¬ 1 < run.length by omega), List.append_nil]
      cases hrb : run ++ behind with
      | nil => rfl
      | cons f fs =>
        rw [if_neg (by simp)]
        simp only [Except.map, Known.before, List.take_succ_cons, List.take_zero, List.drop_succ_cons,
          List.drop_zero, eventFiles_append, h1', oneEach, List.map_cons, List.map_nil, List.nil_append]
        simp only [eventFiles, List.flatMap_cons, List.flatMap_nil, List.append_nil]
        cases createJar W _ <;> rfl

/-- C159, as stated for the command lines with at most one word in front of `--`, and none of it in
front of an option. -/
theorem C159_partial (W : World) {ps : List CmdPiece} (h : ∀ p ∈ ps, CreatePiece negNum isInt p)
    (he : EndsInOption ps) (hf : cmdFiles ps = []) {run : List Str} (hr : ∀ f ∈ run, PlainWord f)
    (hl : run.length ≤ 1) (behind : List Str) :
    PacksPaths W (ps ++ (run ++ behind).map .word)
      (jarCreateRun negNum isInt W (cmdWords ps ++ run ++ "--".toList :: behind)) := by
  have := C159_exact W h he hr behind
  rw [if_neg (by rintro (h | h); exact h hf; omega), List.append_nil] at this
  exact this

/-- C159: what is in the archive. -/
theorem C159_contents (W : World) {ps : List CmdPiece} (h : ∀ p ∈ ps, CreatePiece negNum isInt p)
    {jar : Str} {more : List Str} (hf : cmdFiles ps = jar :: more)
    (hp : ∀ e ∈ cmdOthers 1 ps, PlainArg W e) :
    ∃ rest, jarCreateRun negNum isInt W (cmdWords ps) =
        .ok (jar, ("META-INF/".toList, []) :: ("META-INF/MANIFEST.MF".toList,
          encodeUtf8 "Manifest-Version: 1.0\n\n".toList) :: rest) ∧
      ∀ n b, (n, b) ∈ rest ↔ ∃ e ∈ cmdOthers 1 ps, Contributes W e n b := by
  have h1 := C159_words W h
  obtain ⟨d, rest, h2, rfl, h3⟩ := C95_exact W _ hp
  unfold PacksPaths at h1
  rw [hf, h2] at h1
  exact ⟨rest, h1, h3⟩
end

/-- Two files. -/
def twoFiles : World where
  node p := if p = "b".toList then .file [1] else if p = "c".toList then .file [2] else .missing
  zip _ := .error eFileNotFound

theorem plainWord_create {f : Str} (h : f.head? ≠ some '-') (negNum isInt : Str → Bool) :
    CreatePiece negNum isInt (.word f) := .inl h

/-- C159 is false: in `jarutil c a.jar b -- c` the two dashes are taken for a path. -/
theorem C159_full_fails : ¬ C159_full := by
  intro h
  have h1 := h (fun _ => false) (fun _ => false) twoFiles [.word "a.jar".toList, .word "b".toList]
    ["c".toList] (by
      intro p hp
      simp only [List.mem_cons, List.not_mem_nil, or_false] at hp
      rcases hp with rfl | rfl <;> exact plainWord_create (by decide) _ _)
  have h2 : jarCreateRun (fun _ => false) (fun _ => false) twoFiles
      (cmdWords [.word "a.jar".toList, .word "b".toList] ++ "--".toList :: ["c".toList]) =
      .error eFileNotFound := by decide +kernel
  have h3 : createJar twoFiles ["b".toList, "c".toList] = .ok [("META-INF/".toList, []),
      ("META-INF/MANIFEST.MF".toList, encodeUtf8 "Manifest-Version: 1.0\n\n".toList),
      ("b".toList, [1]), ("c".toList, [2])] := by decide +kernel
  rw [h2] at h1
  have h4 : Except.error eFileNotFound = (createJar twoFiles ["b".toList, "c".toList]).map ("a.jar".toList, ·) :=
    h1
  rw [h3] at h4
  simp [Except.map] at h4

/-- A command line with an option, an unknown one and words. -/
example : jarCreateRun (fun _ => false) (fun _ => false) twoFiles
    ["a.jar".toList, "b".toList, "--main".toList, "M".toList, "c".toList] =
    .ok ("a.jar".toList, [("META-INF/".toList, []),
      ("META-INF/MANIFEST.MF".toList, encodeUtf8 "Manifest-Version: 1.0\n\n".toList),
      ("b".toList, [1]), ("c".toList, [2])]) := by decide +kernel

example : jarCreateRun (fun _ => false) (fun _ => false) twoFiles
    ["-mM".toList, "a.jar".toList, "--".toList, "b".toList] =
    .ok ("a.jar".toList, [("META-INF/".toList, []),
      ("META-INF/MANIFEST.MF".toList, encodeUtf8 "Manifest-Version: 1.0\n\n".toList),
      ("b".toList, [1])]) := by decide +kernel

/-- An option that is not known is a path. -/
example : jarCreateRun (fun _ => false) (fun _ => false)
    { twoFiles with node := fun p => if p = "-x".toList then .file [3] else .missing }
    ["-x".toList, "a.jar".toList] =
    .ok ("a.jar".toList, [("META-INF/".toList, []),
      ("META-INF/MANIFEST.MF".toList, encodeUtf8 "Manifest-Version: 1.0\n\n".toList),
      ("-x".toList, [3])]) := by decide +kernel

end Javatools
