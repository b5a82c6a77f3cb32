import Verif.Proofs.Listing
import Verif.Props.Opcodes
import Verif.Props.OpTable
/-
C99: the listing of the instructions of a method.
-/
namespace Javatools
open Spec

/-! ## Lines -/

theorem opname_chars : ∀ d ∈ opDefs, ∀ c ∈ d.name, c ≠ '\t' ∧ c ≠ '\n' := by decide +kernel

theorem opname_no_tab {code : Nat} {n : Str} (h : getOpnameByCode code = .ok n) :
    '\t' ∉ n ∧ '\n' ∉ n := by
  have hc := column (f := OpDef.name) h
  obtain ⟨d, hd, _, rfl⟩ := hc
  exact ⟨fun hm => (opname_chars d hd _ hm).1 rfl, fun hm => (opname_chars d hd _ hm).2 rfl⟩

theorem pairText_prefix (x y : Int × Int) (r s : Str)
    (h : ("(".toList ++ intText x.1 ++ ", ".toList ++ intText x.2 ++ ")".toList) ++ r =
      ("(".toList ++ intText y.1 ++ ", ".toList ++ intText y.2 ++ ")".toList) ++ s) :
    x = y ∧ r = s := by
  have h' : intText x.1 ++ ',' :: (' ' :: (intText x.2 ++ ')' :: r)) =
      intText y.1 ++ ',' :: (' ' :: (intText y.2 ++ ')' :: s)) := by simpa using h
  obtain ⟨h1, h2⟩ := split_first (intText_not_mem _ (by decide) (by decide))
    (intText_not_mem _ (by decide) (by decide)) h'
  obtain ⟨h3, h4⟩ := split_first (intText_not_mem _ (by decide) (by decide))
    (intText_not_mem _ (by decide) (by decide)) (List.cons.inj h2).2
  exact ⟨Prod.ext (intText_inj h1) (intText_inj h3), h4⟩

theorem singleText_prefix (x y : Int) (r s : Str)
    (h : ("(".toList ++ intText x ++ ",)".toList) ++ r =
      ("(".toList ++ intText y ++ ",)".toList) ++ s) : x = y ∧ r = s := by
  have h' : intText x ++ ',' :: (')' :: r) = intText y ++ ',' :: (')' :: s) := by simpa using h
  obtain ⟨h1, h2⟩ := split_first (intText_not_mem _ (by decide) (by decide))
    (intText_not_mem _ (by decide) (by decide)) h'
  exact ⟨intText_inj h1, (List.cons.inj h2).2⟩

theorem lookupText (d : Int) (ps : List (Int × Int)) :
    argsText (.lookup d ps) = intText d ++ ',' :: ' ' :: '[' :: (joinWith ", ".toList
      (ps.map fun p => "(".toList ++ intText p.1 ++ ", ".toList ++ intText p.2 ++ ")".toList) ++
      ']' :: []) := by
  simp [argsText, joinWith]

theorem tableText (d lo hi : Int) (js : List Int) :
    argsText (.table d lo hi js) = intText d ++ ',' :: ' ' :: (intText lo ++ ',' :: ' ' ::
      (intText hi ++ ',' :: ' ' :: '[' :: (joinWith ", ".toList
      (js.map fun j => "(".toList ++ intText j ++ ",)".toList) ++ ']' :: []))) := by
  simp [argsText, joinWith]

theorem intsText_no_bracket (vs : List Int) : '[' ∉ argsText (.ints vs) := by
  intro h
  rcases mem_joinWith h with h | ⟨x, hx, hc⟩
  · revert h; decide
  · obtain ⟨v, _, rfl⟩ := List.mem_map.1 hx
    exact intText_not_mem v (by decide) (by decide) hc

/-- The text of the operands determines the operands. -/
theorem argsText_injective {x y : Args} (h : argsText x = argsText y) : x = y := by
  have hb : ∀ (v : Int) {c : Char}, c.isDigit = false → c ≠ '-' → c ∉ intText v :=
    fun v _ => intText_not_mem v
  have bl : ∀ d ps, '[' ∈ argsText (.lookup d ps) := by intro d ps; rw [lookupText]; simp
  have bt : ∀ d lo hi js, '[' ∈ argsText (.table d lo hi js) := by
    intro d lo hi js; rw [tableText]; simp
  have lt : ∀ d ps d' lo hi js, argsText (.lookup d ps) ≠ argsText (.table d' lo hi js) := by
    intro d ps d' lo hi js e
    rw [lookupText, tableText] at e
    obtain ⟨_, h2⟩ := split_first (hb _ (by decide) (by decide)) (hb _ (by decide) (by decide)) e
    have h3 := (List.cons.inj h2).2
    cases hlo : intText lo with
    | nil => exact absurd hlo (intText_ne_nil lo)
    | cons c t =>
      rw [hlo] at h3
      simp only [List.cons_append, List.cons.injEq] at h3
      have : '[' ∈ intText lo := by rw [hlo, ← h3.1]; simp
      exact hb lo (by decide) (by decide) this
  cases x with
  | ints vs =>
    cases y with
    | ints ws =>
      have key : ∀ vs : List Int, ∀ s ∈ vs.map intText, ',' ∉ s ∧ s ≠ [] := by
        intro vs s hs
        obtain ⟨v, _, rfl⟩ := List.mem_map.1 hs
        exact ⟨hb v (by decide) (by decide), intText_ne_nil v⟩
      have h2 := joinWith_sep_injective ',' [' '] _ _ (key vs) (key ws) h
      have : vs = ws := by
        clear h
        induction vs generalizing ws with
        | nil => cases ws with
          | nil => rfl
          | cons w ws => simp at h2
        | cons v vs ih => cases ws with
          | nil => simp at h2
          | cons w ws =>
            simp only [List.map_cons, List.cons.injEq] at h2
            rw [intText_inj h2.1, ih ws h2.2]
      rw [this]
    | lookup d ps => exact absurd (h ▸ bl d ps) (intsText_no_bracket vs)
    | table d lo hi js => exact absurd (h ▸ bt d lo hi js) (intsText_no_bracket vs)
  | lookup d ps =>
    cases y with
    | ints ws => exact absurd (h ▸ bl d ps) (intsText_no_bracket ws)
    | lookup d' ps' =>
      rw [lookupText, lookupText] at h
      obtain ⟨h1, h2⟩ := split_first (hb _ (by decide) (by decide)) (hb _ (by decide) (by decide)) h
      have h3 := (List.cons.inj (List.cons.inj h2).2).2
      obtain ⟨h4, _⟩ := bracketed_injective _ _ _ _ _ pairText_prefix (fun x => rfl) h3
      rw [intText_inj h1, h4]
    | table d' lo hi js => exact absurd h (lt _ _ _ _ _ _)
  | table d lo hi js =>
    cases y with
    | ints ws => exact absurd (h ▸ bt d lo hi js) (intsText_no_bracket ws)
    | lookup d' ps => exact absurd h.symm (lt _ _ _ _ _ _)
    | table d' lo' hi' js' =>
      rw [tableText, tableText] at h
      obtain ⟨h1, h2⟩ := split_first (hb _ (by decide) (by decide)) (hb _ (by decide) (by decide)) h
      obtain ⟨h3, h4⟩ := split_first (hb _ (by decide) (by decide)) (hb _ (by decide) (by decide))
        (List.cons.inj h2).2
      obtain ⟨h5, h6⟩ := split_first (hb _ (by decide) (by decide)) (hb _ (by decide) (by decide))
        (List.cons.inj h4).2
      have h7 := (List.cons.inj (List.cons.inj h6).2).2
      obtain ⟨h8, _⟩ := bracketed_injective _ _ _ _ _ singleText_prefix (fun x => rfl) h7
      rw [intText_inj h1, intText_inj h3, intText_inj h5, h8]

/-- What stands after the offset of an instruction. -/
def afterOffset (name : Str) (a : Args) : Str :=
  if a = .ints [] then name else name ++ '\t' :: argsText a

theorem insnLine_eq {i : Insn} {s : Str} (h : insnLine i = .ok s) :
    ∃ name, getOpnameByCode i.code = .ok name ∧
      s = ' ' :: ' ' :: ' ' :: (natText i.off ++ ':' :: '\t' :: afterOffset name i.args) := by
  unfold insnLine at h
  cases hn : getOpnameByCode i.code with
  | error e => rw [hn] at h; simp at h
  | ok name =>
    rw [hn] at h
    refine ⟨name, rfl, ?_⟩
    simp only at h
    unfold afterOffset
    split at h
    · rename_i ha; rw [if_pos ha, ← Except.ok.inj h]; simp
    · rename_i ha; rw [if_neg ha, ← Except.ok.inj h]; simp

theorem argsText_no_newline (a : Args) : '\n' ∉ argsText a := by
  have hi : ∀ v, '\n' ∉ intText v := fun v => intText_not_mem v (by decide) (by decide)
  intro h
  cases a with
  | ints vs =>
    rcases mem_joinWith h with h | ⟨x, hx, hc⟩
    · revert h; decide
    · obtain ⟨v, _, rfl⟩ := List.mem_map.1 hx
      exact hi v hc
  | lookup d ps =>
    rw [lookupText] at h
    simp only [List.mem_append, List.mem_cons, List.not_mem_nil, or_false] at h
    have hd := hi d
    rcases h with h | h | h | h | h | h
    · exact hd h
    · revert h; decide
    · revert h; decide
    · revert h; decide
    · rcases mem_joinWith h with h | ⟨x, hx, hc⟩
      · revert h; decide
      · obtain ⟨p, _, rfl⟩ := List.mem_map.1 hx
        have h1 := hi p.1
        have h2 := hi p.2
        simp at hc
        rcases hc with hc | hc
        · exact h1 hc
        · exact h2 hc
    · revert h; decide
  | table d lo hi' js =>
    rw [tableText] at h
    simp only [List.mem_append, List.mem_cons, List.not_mem_nil, or_false] at h
    have hd := hi d
    have hlo := hi lo
    have hhi := hi hi'
    rcases h with h | h | h | h | h | h | h | h | h | h | h | h
    · exact hd h
    · revert h; decide
    · revert h; decide
    · exact hlo h
    · revert h; decide
    · revert h; decide
    · exact hhi h
    · revert h; decide
    · revert h; decide
    · revert h; decide
    · rcases mem_joinWith h with h | ⟨x, hx, hc⟩
      · revert h; decide
      · obtain ⟨j, _, rfl⟩ := List.mem_map.1 hx
        have h1 := hi j
        simp at hc
        exact h1 hc
    · revert h; decide

/-- A line determines the instruction: its offset, opcode and operands. -/
theorem insnLine_injective {i j : Insn} {s : Str} (hi : insnLine i = .ok s)
    (hj : insnLine j = .ok s) : i = j := by
  obtain ⟨n, hn, rfl⟩ := insnLine_eq hi
  obtain ⟨k, hk, e⟩ := insnLine_eq hj
  simp only [List.cons.injEq, true_and] at e
  obtain ⟨h1, h2⟩ := split_first (natText_not_mem _ (by decide)) (natText_not_mem _ (by decide)) e
  have h3 := (List.cons.inj h2).2
  have hoff := natText_inj h1
  have htab := (opname_no_tab hn).1
  have htab' := (opname_no_tab hk).1
  have hboth : n = k ∧ i.args = j.args := by
    unfold afterOffset at h3
    split at h3
    · rename_i ha
      split at h3
      · rename_i hb; exact ⟨h3, by rw [ha, hb]⟩
      · exact absurd (by rw [h3]; simp) htab
    · split at h3
      · exact absurd (by rw [← h3]; simp) htab'
      · obtain ⟨h4, h5⟩ := split_first htab htab' h3
        exact ⟨h4, argsText_injective h5⟩
  have hcode := C29_names_distinct i.code j.code n hn (by rw [hboth.1]; exact hk)
  obtain ⟨o1, c1, a1⟩ := i
  obtain ⟨o2, c2, a2⟩ := j
  simp only at hoff hcode hboth
  rw [hoff, hcode, hboth.2]

theorem insnLine_no_newline {i : Insn} {s : Str} (h : insnLine i = .ok s) : '\n' ∉ s := by
  obtain ⟨n, hn, rfl⟩ := insnLine_eq h
  have h1 := natText_not_mem i.off (c := '\n') (by decide)
  have h2 := (opname_no_tab hn).2
  have h3 := argsText_no_newline i.args
  unfold afterOffset
  split <;> simp [h1, h2, h3]

/-- The loop prints one line per instruction. -/
theorem insnLines_ok (is : List Insn) (h : ∀ i ∈ is, ∃ s, insnLine i = .ok s) :
    ∃ ls, is.map insnLine = ls.map Except.ok ∧ insnLines is = (unlines ls, none) := by
  induction is with
  | nil => exact ⟨[], rfl, rfl⟩
  | cons i is ih =>
    obtain ⟨s, hs⟩ := h i (by simp)
    obtain ⟨ls, h1, h2⟩ := ih fun j hj => h j (by simp [hj])
    refine ⟨s :: ls, by simp [hs, h1], ?_⟩
    simp [insnLines, hs, h2]

theorem mapLine_injective (is js : List Insn) (ls : List Str)
    (h : is.map insnLine = ls.map Except.ok) (h' : js.map insnLine = ls.map Except.ok) :
    is = js := by
  induction is generalizing js ls with
  | nil =>
    cases ls with
    | nil => cases js with
      | nil => rfl
      | cons j js => simp at h'
    | cons l ls => simp at h
  | cons i is ih =>
    cases ls with
    | nil => simp at h
    | cons l ls => cases js with
      | nil => simp at h'
      | cons j js =>
        simp only [List.map_cons, List.cons.injEq] at h h'
        rw [insnLine_injective h.1 h'.1, ih js ls h.2 h'.2]

/-! ## C99 -/

/-- The mnemonic the tool shows: the JVM's, but "monitorentry" for monitorenter. -/
def shownName (op : Nat) : Str :=
  if op = 0xc2 then "monitorentry".toList else (mnemonics.getD op "").toList

/-- The operands of an instruction as the tool shows them. -/
def shownOperands : Instr → Str
  | .fixed op args =>
    joinWith ", ".toList ((if op = 0x10 then args.map (· % 256) else args).map intText)
  | .tableswitch d l h js => intText d ++ ", ".toList ++ intText l ++ ", ".toList ++ intText h ++
      ", [".toList ++ joinWith ", ".toList (js.map fun j => '(' :: intText j ++ ",)".toList) ++ [']']
  | .lookupswitch d ps => intText d ++ ", [".toList ++ joinWith ", ".toList
      (ps.map fun p => '(' :: intText p.1 ++ ", ".toList ++ intText p.2 ++ [')']) ++ [']']
  | .wide op i => natText op ++ ", ".toList ++ natText i
  | .wideIinc i v => "132, ".toList ++ natText i ++ ", ".toList ++ intText v

def Spec.Instr.hasOperands : Instr → Bool
  | .fixed _ args => !args.isEmpty
  | _ => true

/-- The line of an instruction at a position. -/
def shownLine (pos : Nat) (i : Instr) : Str :=
  "   ".toList ++ natText pos ++ ":\t".toList ++ shownName i.opcode ++
    if i.hasOperands then '\t' :: shownOperands i else []

theorem argsText_reported (i : Instr) : argsText (reportedArgs i) = shownOperands i := by
  cases i with
  | fixed op args => rfl
  | tableswitch d l h js => simp [reportedArgs, argsText, shownOperands, joinWith]
  | lookupswitch d ps => simp [reportedArgs, argsText, shownOperands, joinWith]
  | wide op i => simp [reportedArgs, argsText, shownOperands, joinWith, intText]
  | wideIinc i v =>
    have : intText 132 = "132".toList := by decide +kernel
    simp only [reportedArgs, argsText, shownOperands, joinWith, List.map_cons, List.map_nil]
    rw [show ((0x84 : Int)) = 132 from rfl, this]
    simp [intText]

theorem insnLine_valid (pos : Nat) (i : Instr) (hv : i.Valid) :
    insnLine ⟨pos, i.opcode, reportedArgs i⟩ = .ok (shownLine pos i) := by
  obtain ⟨_, _, hop⟩ := enc_cons i pos hv
  have hname : getOpnameByCode i.opcode = .ok (shownName i.opcode) := C29_mnemonics _ hop
  unfold insnLine
  simp only [hname]
  unfold shownLine
  rw [argsText_reported]
  cases i with
  | fixed op args =>
    simp only [reportedArgs, Instr.hasOperands]
    cases args with
    | nil => simp
    | cons a as => by_cases h : op = 0x10 <;> simp [h]
  | tableswitch d l h js => simp [reportedArgs, Instr.hasOperands]
  | lookupswitch d ps => simp [reportedArgs, Instr.hasOperands]
  | wide op i => simp [reportedArgs, Instr.hasOperands]
  | wideIinc i v => simp [reportedArgs, Instr.hasOperands]

theorem insnLines_zip (ps : List Nat) (is : List Instr) (hv : ∀ i ∈ is, i.Valid) :
    insnLines (List.zipWith (fun p i => ⟨p, i.opcode, reportedArgs i⟩) ps is) =
      (unlines (List.zipWith shownLine ps is), none) := by
  induction is generalizing ps with
  | nil => simp [insnLines]
  | cons i is ih =>
    cases ps with
    | nil => simp [insnLines]
    | cons p ps =>
      simp only [List.zipWith_cons_cons, insnLines, insnLine_valid p i (hv i (by simp)), withRes_ok,
        sayLine_eq, andThen_none, ih ps fun j hj => hv j (by simp [hj])]
      simp

/-- C99. What `-c` prints for a method whose code is a sequence of JVM instructions: a heading and
one line for each instruction, in order, with its offset, mnemonic and operands (and the exception
table, if there is one). -/
theorem C99_exact (E : PrintEnv) (o : InfoArgs) (pool : Pool) (m : Member) (code : CodeInfo)
    (is : List Instr) (hv : ∀ i ∈ is, i.Valid) (hc : code.code = encCode 0 is)
    (hverb : o.verbose = false) (hx : code.exceptions = []) :
    printCode E o pool m code =
      ("  Code:\n".toList ++ unlines (List.zipWith shownLine (positions 0 is) is), none) := by
  have hd : code.disassemble =
      .ok (List.zipWith (fun p i => ⟨p, i.opcode, reportedArgs i⟩) (positions 0 is) is) := by
    unfold CodeInfo.disassemble disassembleAll
    rw [hc, C27_disassemble_assemble is hv]
  unfold printCode
  rw [hd, hverb, hx]
  simp [insnLines_zip _ _ hv]

/-- C99. The listing shows everything: two codes with the same listing have the same instructions
at the same offsets. -/
theorem C99_faithful (is js : List Insn) (a b : Str) (hi : insnLines is = (a, none))
    (hj : insnLines js = (b, none)) (h : a = b) : is = js := by
  have key : ∀ (is : List Insn) (a : Str), insnLines is = (a, none) →
      ∀ i ∈ is, ∃ s, insnLine i = .ok s := by
    intro is
    induction is with
    | nil => intro a _ i hi; simp at hi
    | cons x is ih =>
      intro a ha i hi
      cases hx : insnLine x with
      | error e => simp [insnLines, hx] at ha
      | ok s =>
        simp only [insnLines, hx, withRes_ok, sayLine_eq, andThen_none, Prod.mk.injEq] at ha
        rcases List.mem_cons.1 hi with rfl | hi
        · exact ⟨s, hx⟩
        · exact ih (insnLines is).1 (Prod.ext rfl ha.2) i hi
  obtain ⟨ls, h1, h2⟩ := insnLines_ok is (key is a hi)
  obtain ⟨ks, h3, h4⟩ := insnLines_ok js (key js b hj)
  have e : unlines ls = unlines ks := by
    rw [hi] at h2; rw [hj] at h4
    rw [← (Prod.mk.inj h2).1, ← (Prod.mk.inj h4).1, h]
  have nl : ∀ (is : List Insn) (ls : List Str), is.map insnLine = ls.map Except.ok →
      ∀ l ∈ ls, '\n' ∉ l := by
    intro is ls h l hl
    have : Except.ok l ∈ is.map insnLine := by rw [h]; exact List.mem_map.2 ⟨l, hl, rfl⟩
    obtain ⟨i, _, hi⟩ := List.mem_map.1 this
    exact insnLine_no_newline hi
  have hls := unlines_injective (nl is ls h1) (nl js ks h3) e
  subst hls
  exact mapLine_injective is js ls h1 h3

/-- The operands the tool reports determine the instruction. -/
theorem reported_injective {i j : Instr} (hi : i.Valid) (hj : j.Valid) (ho : i.opcode = j.opcode)
    (ha : reportedArgs i = reportedArgs j) : i = j := by
  have none' : operands 0xaa = none ∧ operands 0xab = none ∧ operands 0xc4 = none := by
    decide +kernel
  have nofix : ∀ {args}, ¬ (Instr.fixed 0xc4 args).Valid := by
    rintro args ⟨os, h, _⟩; rw [none'.2.2] at h; simp at h
  cases i with
  | fixed op args =>
    cases j with
    | fixed op' args' =>
      have ho : op = op' := ho
      subst ho
      simp only [reportedArgs, Args.ints.injEq] at ha
      split at ha
      · rename_i h10
        subst h10
        obtain ⟨os, h1, h2, h3⟩ := hi
        obtain ⟨os', h4, h5, h6⟩ := hj
        have hop : operands 0x10 = some [.imm1] := by decide +kernel
        rw [hop] at h1 h4
        obtain rfl := Option.some.inj h1
        obtain rfl := Option.some.inj h4
        match args, args', h2, h5 with
        | [x], [y], _, _ =>
          have hx : Operand.InRange .imm1 x := h3 (.imm1, x) (by simp)
          have hy : Operand.InRange .imm1 y := h6 (.imm1, y) (by simp)
          have e : x % 256 = y % 256 := by simpa using ha
          simp [Operand.InRange, SRange, Operand.signed, Operand.width] at hx hy
          have : x = y := by omega
          rw [this]
      · rw [ha]
    | tableswitch d l h js => simp [reportedArgs] at ha
    | lookupswitch d ps => simp [reportedArgs] at ha
    | wide op' k => have ho : op = 0xc4 := ho; subst ho; exact absurd hi nofix
    | wideIinc k v => have ho : op = 0xc4 := ho; subst ho; exact absurd hi nofix
  | tableswitch d l h js =>
    cases j <;> simp [reportedArgs] at ha
    simp [ha]
  | lookupswitch d ps =>
    cases j <;> simp [reportedArgs] at ha
    simp [ha]
  | wide op k =>
    cases j with
    | fixed op' args => have ho : 0xc4 = op' := ho; subst ho; exact absurd hj nofix
    | tableswitch d l h js => simp [reportedArgs] at ha
    | lookupswitch d ps => simp [reportedArgs] at ha
    | wide op' k' =>
      simp only [reportedArgs, Args.ints.injEq, List.cons.injEq, and_true, Int.ofNat_inj] at ha
      rw [ha.1, ha.2]
    | wideIinc k' v => simp [reportedArgs] at ha
  | wideIinc k v =>
    cases j with
    | fixed op' args => have ho : 0xc4 = op' := ho; subst ho; exact absurd hj nofix
    | tableswitch d l h js => simp [reportedArgs] at ha
    | lookupswitch d ps => simp [reportedArgs] at ha
    | wide op' k' => simp [reportedArgs] at ha
    | wideIinc k' v' =>
      simp only [reportedArgs, Args.ints.injEq, List.cons.injEq, and_true, true_and,
        Int.ofNat_inj] at ha
      rw [ha.1, ha.2]

/-- C99. Two sequences of JVM instructions with the same listing are the same. -/
theorem C99_injective (is js : List Instr) (hi : ∀ i ∈ is, i.Valid) (hj : ∀ j ∈ js, j.Valid)
    (h : unlines (List.zipWith shownLine (positions 0 is) is) =
      unlines (List.zipWith shownLine (positions 0 js) js)) : is = js := by
  have h1 := insnLines_zip (positions 0 is) is hi
  have h2 := insnLines_zip (positions 0 js) js hj
  have key := C99_faithful _ _ _ _ h1 h2 h
  have aux : ∀ (ps qs : List Nat) (is js : List Instr), ps.length = is.length →
      qs.length = js.length → (∀ i ∈ is, i.Valid) → (∀ j ∈ js, j.Valid) →
      List.zipWith (fun p i => (⟨p, i.opcode, reportedArgs i⟩ : Insn)) ps is =
        List.zipWith (fun p i => ⟨p, i.opcode, reportedArgs i⟩) qs js → is = js := by
    intro ps qs is
    induction is generalizing ps qs with
    | nil =>
      intro js hp hq _ _ e
      cases js with
      | nil => rfl
      | cons j js => cases qs <;> simp at hq e
    | cons i is ih =>
      intro js hp hq hi hj e
      cases ps with
      | nil => simp at hp
      | cons p ps =>
        cases js with
        | nil => simp at e
        | cons j js =>
          cases qs with
          | nil => simp at hq
          | cons q qs =>
            simp only [List.zipWith_cons_cons, List.cons.injEq, Insn.mk.injEq] at e
            rw [reported_injective (hi i (by simp)) (hj j (by simp)) e.1.2.1 e.1.2.2,
              ih ps qs js (by simpa using hp) (by simpa using hq) (fun k hk => hi k (by simp [hk]))
                (fun k hk => hj k (by simp [hk])) e.2]
  have len : ∀ (is : List Instr) p, (positions p is).length = is.length := by
    intro is
    induction is with
    | nil => intro p; rfl
    | cons i is ih => intro p; simp [positions, ih]
  exact aux _ _ _ _ (len is 0) (len js 0) hi hj key

example : insnLines [⟨0, 0x1a, .ints []⟩, ⟨1, 0xaa, .table 100 (-1) 1 [10, 20, -30]⟩,
      ⟨28, 0xab, .lookup 8 [(-7, 9), (5, 6)]⟩, ⟨52, 0xb9, .ints [5, 2, 0]⟩] =
    ("   0:\tiload_0\n   1:\ttableswitch\t100, -1, 1, [(10,), (20,), (-30,)]\n   28:\tlookupswitch\t8, [(-7, 9), (5, 6)]\n   52:\tinvokeinterface\t5, 2, 0\n".toList,
      none) := by decide +kernel

/-- C99. Numbers are in decimal, with a minus sign exactly when they are negative. -/
theorem C99_numbers (i : Int) :
    intText i = (if i < 0 then ['-'] else []) ++ Nat.toDigits 10 i.natAbs := by
  cases i with
  | ofNat n => simp [intText, natText_eq]
  | negSucc n => simp [intText, natText_eq, Int.negSucc_lt_zero]

example : intText (-120) = "-120".toList := by decide +kernel

end Javatools
