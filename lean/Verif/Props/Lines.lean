import Verif.Model.Lines
import Verif.Proofs.ClassFile
import Verif.Proofs.Dict
/-
C31-C34: line numbers, merged code and merged constants.
-/
namespace Javatools
open Spec

/-! ## C31 -/

/-- `line` is the line of an entry with the greatest start offset not exceeding `pc`, or 0 when
no entry starts at or before `pc`. -/
def IsLineOf (lnt : List (Nat × Nat)) (pc line : Nat) : Prop :=
  (∃ o, (o, line) ∈ lnt ∧ o ≤ pc ∧ ∀ e ∈ lnt, e.1 ≤ pc → e.1 ≤ o) ∨
  ((∀ e ∈ lnt, pc < e.1) ∧ line = 0)

/-- C31 as stated: for all tables. It fails for tables not sorted by offset. -/
def C31_full : Prop := ∀ lnt pc, IsLineOf lnt pc (lineForOffset lnt pc)

theorem C31_full_fails : ¬ C31_full := by
  intro h
  have := h [(10, 7), (0, 5)] 0
  have e : lineForOffset [(10, 7), (0, 5)] 0 = 0 := by decide
  rw [e] at this
  rcases this with ⟨o, h1, _⟩ | ⟨h1, _⟩
  · simp at h1
  · have := h1 (0, 5) (by simp)
    simp at this

theorem lineLoop_sorted (pc : Nat) (lnt : List (Nat × Nat)) (prev : Nat)
    (hs : (lnt.map Prod.fst).Pairwise (· ≤ ·)) :
    (∃ o, (o, lineLoop pc prev lnt) ∈ lnt ∧ o ≤ pc ∧ ∀ e ∈ lnt, e.1 ≤ pc → e.1 ≤ o) ∨
    ((∀ e ∈ lnt, pc < e.1) ∧ lineLoop pc prev lnt = prev) := by
  induction lnt generalizing prev with
  | nil => right; simp [lineLoop]
  | cons e lnt ih =>
    obtain ⟨off, line⟩ := e
    simp only [List.map_cons, List.pairwise_cons] at hs
    have hle : ∀ e ∈ lnt, off ≤ e.1 := fun e he => hs.1 e.1 (List.mem_map_of_mem he)
    unfold lineLoop
    by_cases h1 : off < pc
    · rw [if_pos h1]
      left
      rcases ih line hs.2 with ⟨o, h2, h3, h4⟩ | ⟨h2, h3⟩
      · refine ⟨o, List.mem_cons_of_mem _ h2, h3, ?_⟩
        intro e he hpc
        rcases List.mem_cons.1 he with rfl | he
        · exact hle _ h2
        · exact h4 e he hpc
      · refine ⟨off, by rw [h3]; simp, by omega, ?_⟩
        intro e he hpc
        rcases List.mem_cons.1 he with rfl | he
        · exact Nat.le_refl _
        · have := h2 e he; omega
    · rw [if_neg h1]
      by_cases h2 : off = pc
      · rw [if_pos h2]
        left
        exact ⟨off, by simp, by omega, fun e he hpc => by omega⟩
      · rw [if_neg h2]
        right
        refine ⟨?_, rfl⟩
        intro e he
        rcases List.mem_cons.1 he with rfl | he
        · simp only; omega
        · have := hle e he; omega

/-- C31 for every table sorted by offset (what javac writes). -/
theorem C31_line_lookup_partial (lnt : List (Nat × Nat)) (pc : Nat)
    (hs : (lnt.map Prod.fst).Pairwise (· ≤ ·)) : IsLineOf lnt pc (lineForOffset lnt pc) :=
  lineLoop_sorted pc lnt 0 hs

/-- For a table with distinct offsets `IsLineOf` has one solution, so the result is determined. -/
theorem C31_line_unique (lnt : List (Nat × Nat)) (pc a b : Nat)
    (hd : (lnt.map Prod.fst).Pairwise (· ≠ ·)) (ha : IsLineOf lnt pc a) (hb : IsLineOf lnt pc b) :
    a = b := by
  have key : ∀ (l : List (Nat × Nat)), (l.map Prod.fst).Pairwise (· ≠ ·) → ∀ o x y,
      (o, x) ∈ l → (o, y) ∈ l → x = y := by
    intro l
    induction l with
    | nil => intro _ o x y h; simp at h
    | cons e l ih =>
      intro hp o x y hx hy
      simp only [List.map_cons, List.pairwise_cons] at hp
      rcases List.mem_cons.1 hx with rfl | hx2 <;> rcases List.mem_cons.1 hy with h | hy
      · exact (Prod.mk.inj h).2.symm
      · exact absurd rfl (hp.1 o (List.mem_map_of_mem (f := Prod.fst) hy))
      · subst h; exact absurd rfl (hp.1 o (List.mem_map_of_mem (f := Prod.fst) hx2))
      · exact ih hp.2 o x y hx2 hy
  rcases ha with ⟨o, h1, h2, h3⟩ | ⟨h1, h2⟩ <;> rcases hb with ⟨p, g1, g2, g3⟩ | ⟨g1, g2⟩
  · have e : o = p := Nat.le_antisymm (g3 _ h1 h2) (h3 _ g1 g2)
    subst e
    exact key lnt hd o a b h1 g1
  · have := g1 _ h1; simp only at this; omega
  · have := h1 _ g1; simp only at this; omega
  · omega

/-- C31, what happens on any table: the entries before the first one at or after `pc` decide. -/
theorem C31_exact (lnt : List (Nat × Nat)) (pc : Nat) :
    lineForOffset lnt pc =
      match lnt.dropWhile (fun e => e.1 < pc) with
      | (o, l) :: _ => if o = pc then l else
          ((lnt.takeWhile (fun e => e.1 < pc)).getLast?.map Prod.snd).getD 0
      | [] => ((lnt.takeWhile (fun e => e.1 < pc)).getLast?.map Prod.snd).getD 0 := by
  have key : ∀ prev, lineLoop pc prev lnt =
      match lnt.dropWhile (fun e => e.1 < pc) with
      | (o, l) :: _ => if o = pc then l else
          ((lnt.takeWhile (fun e => e.1 < pc)).getLast?.map Prod.snd).getD prev
      | [] => ((lnt.takeWhile (fun e => e.1 < pc)).getLast?.map Prod.snd).getD prev := by
    induction lnt with
    | nil => intro prev; simp [lineLoop]
    | cons e lnt ih =>
      obtain ⟨off, line⟩ := e
      intro prev
      unfold lineLoop
      by_cases h1 : off < pc
      · rw [if_pos h1, ih line]
        simp only [List.dropWhile_cons, List.takeWhile_cons, h1, decide_true, if_true]
        have : ∀ q, ((((off, line) :: lnt.takeWhile (fun e => decide (e.1 < pc))).getLast?).map
            Prod.snd).getD q = (((lnt.takeWhile (fun e => decide (e.1 < pc))).getLast?).map
            Prod.snd).getD line := by
          intro q
          rw [List.getLast?_cons]
          cases (lnt.takeWhile (fun e => decide (e.1 < pc))).getLast? <;> simp
        rw [this]
      · simp [List.dropWhile_cons, List.takeWhile_cons, h1]
  exact key 0

/-- Non-vacuity: a table with a gap before the first entry and a jump backwards in line. -/
example : lineForOffset [(2, 10), (5, 8), (9, 12)] 1 = 0 ∧ lineForOffset [(2, 10), (5, 8), (9, 12)] 2 = 10 ∧
    lineForOffset [(2, 10), (5, 8), (9, 12)] 8 = 8 ∧ lineForOffset [(2, 10), (5, 8), (9, 12)] 100 = 12 := by
  decide

/-! ## C32 -/

/-- Adjacent elements are related. -/
def Adjacent {α : Type} (R : α → α → Prop) : List α → Prop
  | a :: b :: l => R a b ∧ Adjacent R (b :: l)
  | _ => True

/-- The statement of C32 for a table and a disassembly. -/
def GroupsByLine (lnt : List (Nat × Nat)) (dis : List Insn) (gs : List LineGroup) : Prop :=
  gs.flatMap LineGroup.insns = dis ∧
  (∀ g ∈ gs, g.insns ≠ []) ∧
  (∀ g ∈ gs, ∀ i ∈ g.insns, lineForOffset lnt i.off = g.absLine) ∧
  (∀ g ∈ gs, ∃ o l, lnt.head? = some (o, l) ∧ g.relLine = (g.absLine : Int) - l) ∧
  Adjacent (fun g h => g.absLine ≠ h.absLine) gs

/-- C32 as stated. It fails for code without line numbers, which is one group labelled 1. -/
def C32_full : Prop := ∀ lnt dis, GroupsByLine lnt dis (codeByLines lnt dis)

theorem C32_full_fails : ¬ C32_full := by
  intro h
  have := (h [] []).2.1 ⟨1, 1, []⟩ (by simp [codeByLines])
  exact this rfl

theorem groupLoop_head (lnt : List (Nat × Nat)) (off line : Nat) (current is : List Insn)
    (h : current ≠ []) :
    ∃ g rest, groupLoop lnt off (some (line, current)) is = g :: rest ∧ g.absLine = line := by
  induction is generalizing current with
  | nil => simp [groupLoop, h]
  | cons i is ih =>
    unfold groupLoop
    simp only
    split
    · exact ih (current ++ [i]) (by simp)
    · exact ⟨_, _, rfl, rfl⟩

theorem groupLoop_some (lnt : List (Nat × Nat)) (o off line : Nat) (current is : List Insn)
    (hne : current ≠ []) (hcur : ∀ i ∈ current, lineForOffset lnt i.off = line)
    (hlnt : lnt.head? = some (o, off)) :
    GroupsByLine lnt (current ++ is) (groupLoop lnt off (some (line, current)) is) := by
  induction is generalizing current line with
  | nil =>
    unfold groupLoop
    rw [if_pos hne]
    refine ⟨by simp, by simp [hne], by simpa using hcur, ?_, trivial⟩
    intro g hg
    simp only [List.mem_singleton] at hg
    subst hg
    exact ⟨o, off, hlnt, rfl⟩
  | cons i is ih =>
    unfold groupLoop
    simp only
    split
    · rename_i hl
      have := ih line (current ++ [i]) (by simp) (by
        intro j hj
        rcases List.mem_append.1 hj with hj | hj
        · exact hcur j hj
        · simp only [List.mem_singleton] at hj; subst hj; exact hl.symm)
      simpa using this
    · rename_i hl
      obtain ⟨h1, h2, h3, h4, h5⟩ := ih (lineForOffset lnt i.off) [i] (by simp) (by simp)
      refine ⟨?_, ?_, ?_, ?_, ?_⟩
      · simp only [List.flatMap_cons, h1]; simp
      · intro g hg
        rcases List.mem_cons.1 hg with rfl | hg
        · exact hne
        · exact h2 g hg
      · intro g hg
        rcases List.mem_cons.1 hg with rfl | hg
        · exact hcur
        · exact h3 g hg
      · intro g hg
        rcases List.mem_cons.1 hg with rfl | hg
        · exact ⟨o, off, hlnt, rfl⟩
        · exact h4 g hg
      · obtain ⟨g, rest, hg, hgl⟩ := groupLoop_head lnt off (lineForOffset lnt i.off) [i] is (by simp)
        rw [hg] at h5 ⊢
        exact ⟨by simpa [hgl] using hl, h5⟩

/-- C32 for every code block with at least one line number entry, whatever the table. -/
theorem C32_grouping_partial (lnt : List (Nat × Nat)) (dis : List Insn) (h : lnt ≠ []) :
    GroupsByLine lnt dis (codeByLines lnt dis) := by
  match lnt, h with
  | (o, off) :: lnt, _ =>
    unfold codeByLines
    simp only
    cases dis with
    | nil => simp [groupLoop, GroupsByLine, Adjacent]
    | cons i is =>
      have := groupLoop_some ((o, off) :: lnt) o off (lineForOffset ((o, off) :: lnt) i.off) [i] is
        (by simp) (by simp) rfl
      simpa [groupLoop] using this

/-- C32 without line numbers: nothing is lost either, and there is one group. -/
theorem C32_no_table (dis : List Insn) :
    codeByLines [] dis = [⟨1, 1, dis⟩] ∧
    (codeByLines [] dis).flatMap LineGroup.insns = dis := by
  simp [codeByLines]

/-- C32 on code blocks: when the table and the code decode, the groups are those. -/
theorem C32_iter_code_by_lines (c : CodeInfo) (gs : List LineGroup)
    (h : c.iterCodeByLines = .ok gs) :
    ∃ lnt dis, c.getLinenumbertable = .ok lnt ∧ c.disassemble = .ok dis ∧
      gs.flatMap LineGroup.insns = dis ∧ (lnt ≠ [] → GroupsByLine lnt dis gs) := by
  unfold CodeInfo.iterCodeByLines at h
  cases h1 : c.getLinenumbertable with
  | error e => rw [h1] at h; simp [bind, Except.bind] at h
  | ok lnt =>
    cases h2 : c.disassemble with
    | error e => rw [h1, h2] at h; simp [bind, Except.bind] at h
    | ok dis =>
      rw [h1, h2] at h
      simp only [bind, Except.bind, Except.ok.injEq] at h
      subst h
      refine ⟨lnt, dis, rfl, rfl, ?_, fun hn => C32_grouping_partial lnt dis hn⟩
      by_cases hn : lnt = []
      · subst hn; exact (C32_no_table dis).2
      · exact (C32_grouping_partial lnt dis hn).1

/-- C32: `get_linenumbertable` reads back the encoded table (JVMS 4.7.12), and the relative
table subtracts the line of the first entry. -/
theorem C32_linenumbertable (c : CodeInfo) (lnt : List (Nat × Nat)) (extra : Bytes)
    (hl : lnt.length < 65536) (hr : ∀ e ∈ lnt, e.1 < 65536 ∧ e.2 < 65536)
    (h : getAttribute c.attribs "LineNumberTable" =
      some (be 2 lnt.length ++ lnt.flatMap (fun e => be 2 e.1 ++ be 2 e.2) ++ extra)) :
    c.getLinenumbertable = .ok lnt := by
  unfold CodeInfo.getLinenumbertable
  rw [h]
  have := (Decodes.counted (p := u2u2) (fun e : Nat × Nat => be 2 e.1 ++ be 2 e.2) id lnt hl
    (fun e he => Decodes.u2u2 (hr e he).1 (hr e he).2)).run extra
  simpa using this

theorem C32_relative (lnt : List (Nat × Nat)) (k o l o0 l0 : Nat) (h0 : lnt[0]? = some (o0, l0))
    (hk : lnt[k]? = some (o, l)) : (relativeTable lnt)[k]? = some (o, (l : Int) - l0) ∧
    (relativeTable lnt).length = lnt.length := by
  match lnt, h0 with
  | (a, b) :: rest, h0 =>
    simp only [List.getElem?_cons_zero, Option.some.injEq, Prod.mk.injEq] at h0
    obtain ⟨rfl, rfl⟩ := h0
    simp only [relativeTable, List.getElem?_map, hk, Option.map_some, List.length_map, and_true]

/-- A loop whose condition line comes after its body. -/
def demoLnt : List (Nat × Nat) := [(0, 10), (2, 12), (5, 11), (8, 12)]
def demoDis : List Insn := [⟨0, 3, .ints []⟩, ⟨1, 0x3b, .ints []⟩, ⟨2, 0x84, .ints [0, 1]⟩,
  ⟨5, 0xa7, .ints [3]⟩, ⟨8, 0xb1, .ints []⟩]

example : codeByLines demoLnt demoDis =
    [⟨10, 0, [⟨0, 3, .ints []⟩, ⟨1, 0x3b, .ints []⟩]⟩, ⟨12, 2, [⟨2, 0x84, .ints [0, 1]⟩]⟩,
     ⟨11, 1, [⟨5, 0xa7, .ints [3]⟩]⟩, ⟨12, 2, [⟨8, 0xb1, .ints []⟩]⟩] := by decide

/-! ## C33 -/

/-- C33 as stated, on the groups of both sides. It fails when a line recurs. -/
def C33_full : Prop := ∀ (lnt lnt' : List (Nat × Nat)) (dis dis' : List Insn),
  (∀ g ∈ codeByLines lnt dis, ∀ i ∈ g.insns, ∃ e a is, (mergeGroups (codeByLines lnt dis)
      (codeByLines lnt' dis')).get? g.relLine = some e ∧ e.1 = some (a, is) ∧ i ∈ is) ∧
  (∀ g ∈ codeByLines lnt' dis', ∀ i ∈ g.insns, ∃ e a is, (mergeGroups (codeByLines lnt dis)
      (codeByLines lnt' dis')).get? g.relLine = some e ∧ e.2 = some (a, is) ∧ i ∈ is)

/-- Two visits of one line: the first visit's instructions are lost. -/
theorem C33_full_fails : ¬ C33_full := by
  intro h
  have := (h demoLnt [] demoDis []).1 ⟨12, 2, [⟨2, 0x84, .ints [0, 1]⟩]⟩ (by decide)
    ⟨2, 0x84, .ints [0, 1]⟩ (by simp)
  obtain ⟨e, a, is, h1, h2, h3⟩ := this
  have e1 : (mergeGroups (codeByLines demoLnt demoDis) (codeByLines [] [])).get? 2 =
      some (some (12, [⟨8, 0xb1, .ints []⟩]), none) := by decide
  rw [e1] at h1
  simp only [Option.some.injEq] at h1
  subst h1
  simp only [Option.some.injEq, Prod.mk.injEq] at h2
  obtain ⟨_, rfl⟩ := h2
  simp at h3

/-- The last group with a given relative line. -/
def lastGroup (gs : List LineGroup) (k : Int) : Option LineGroup :=
  gs.reverse.find? fun g => decide (g.relLine = k)

theorem lastGroup_cons (g : LineGroup) (gs : List LineGroup) (k : Int) :
    lastGroup (g :: gs) k = (lastGroup gs k).or (if g.relLine = k then some g else none) := by
  unfold lastGroup
  simp only [List.reverse_cons, List.find?_append, List.find?_cons, List.find?_nil]
  by_cases h : g.relLine = k <;> simp [h]

/-- The side of an entry a group makes. -/
def LineGroup.side (g : LineGroup) : Nat × List Insn := (g.absLine, g.insns)

theorem mergeLeft_get (gs : List LineGroup) (d : PyDict Int (MergeSide × MergeSide)) (k : Int) :
    (mergeLeft d gs).get? k = match lastGroup gs k with
      | some g => some (some g.side, none)
      | none => d.get? k := by
  induction gs generalizing d with
  | nil => rfl
  | cons g gs ih =>
    simp only [mergeLeft, ih, lastGroup_cons]
    cases lastGroup gs k with
    | some g' => rfl
    | none =>
      simp only [Option.none_or]
      by_cases h : g.relLine = k
      · rw [PyDict.get?_set]; simp [h, LineGroup.side]
      · rw [PyDict.get?_set]; simp [h]

theorem mergeRight_get (gs : List LineGroup) (d : PyDict Int (MergeSide × MergeSide)) (k : Int) :
    (mergeRight d gs).get? k = match lastGroup gs k with
      | some g => some ((d.get? k).bind Prod.fst, some g.side)
      | none => d.get? k := by
  induction gs generalizing d with
  | nil => rfl
  | cons g gs ih =>
    have hstep : mergeRight d (g :: gs) =
        mergeRight (d.set g.relLine ((d.get? g.relLine).bind Prod.fst, some g.side)) gs := by
      simp only [mergeRight]
      cases d.get? g.relLine <;> rfl
    rw [hstep, ih, lastGroup_cons]
    by_cases h : g.relLine = k
    · subst h
      rw [PyDict.get?_set]
      cases lastGroup gs g.relLine <;> simp
    · rw [PyDict.get?_set]
      cases lastGroup gs k <;> simp [h]

/-- C33, what `merge_code` holds: for each relative line, the last group of each side. -/
theorem C33_exact (l r : List LineGroup) (k : Int) :
    (mergeGroups l r).get? k =
      match lastGroup l k, lastGroup r k with
      | none, none => none
      | gl, gr => some (gl.map LineGroup.side, gr.map LineGroup.side) := by
  unfold mergeGroups
  rw [mergeRight_get, mergeLeft_get]
  cases lastGroup l k <;> cases lastGroup r k <;> simp [PyDict.get?]

theorem lastGroup_of_nodup {gs : List LineGroup} (h : (gs.map LineGroup.relLine).Nodup)
    {g : LineGroup} (hg : g ∈ gs) : lastGroup gs g.relLine = some g := by
  induction gs with
  | nil => simp at hg
  | cons x gs ih =>
    simp only [List.map_cons, List.nodup_cons] at h
    rw [lastGroup_cons]
    rcases List.mem_cons.1 hg with rfl | hg
    · have : lastGroup gs g.relLine = none := by
        unfold lastGroup
        rw [List.find?_eq_none]
        intro y hy
        simp only [decide_eq_true_eq]
        intro he
        exact h.1 (he ▸ List.mem_map_of_mem (List.mem_reverse.1 hy))
      rw [this]; simp
    · rw [ih h.2 hg]; simp

/-- C33 when no line recurs on either side: every instruction of both methods is under its
relative line. -/
theorem C33_merge_code_partial (l r : Option CodeInfo) (gl gr : List LineGroup)
    (hl : groupsOf l = .ok gl) (hr : groupsOf r = .ok gr)
    (nl : (gl.map LineGroup.relLine).Nodup) (nr : (gr.map LineGroup.relLine).Nodup) :
    ∃ data, mergeCode l r = .ok data ∧
      (∀ g ∈ gl, ∃ e, data.get? g.relLine = some e ∧ e.1 = some (g.absLine, g.insns)) ∧
      (∀ g ∈ gr, ∃ e, data.get? g.relLine = some e ∧ e.2 = some (g.absLine, g.insns)) := by
  refine ⟨mergeGroups gl gr, ?_, ?_, ?_⟩
  · simp [mergeCode, hl, hr, bind, Except.bind]
  · intro g hg
    rw [C33_exact, lastGroup_of_nodup nl hg]
    cases lastGroup gr g.relLine <;> exact ⟨_, rfl, rfl⟩
  · intro g hg
    rw [C33_exact, lastGroup_of_nodup nr hg]
    cases lastGroup gl g.relLine <;> exact ⟨_, rfl, rfl⟩

/-- C33, nothing is invented: every listed side is a group of that method. -/
theorem C33_only_groups (l r : List LineGroup) (k : Int) (e : MergeSide × MergeSide)
    (h : (mergeGroups l r).get? k = some e) :
    (∀ s, e.1 = some s → ∃ g ∈ l, g.relLine = k ∧ s = (g.absLine, g.insns)) ∧
    (∀ s, e.2 = some s → ∃ g ∈ r, g.relLine = k ∧ s = (g.absLine, g.insns)) := by
  rw [C33_exact] at h
  have key : ∀ gs g, lastGroup gs k = some g → g ∈ gs ∧ g.relLine = k := by
    intro gs g hg
    unfold lastGroup at hg
    exact ⟨List.mem_reverse.1 (List.mem_of_find?_eq_some hg), by simpa using List.find?_some hg⟩
  cases h1 : lastGroup l k with
  | none =>
    cases h2 : lastGroup r k with
    | none => rw [h1, h2] at h; simp at h
    | some g =>
      rw [h1, h2] at h
      simp only [Option.some.injEq] at h
      subst h
      refine ⟨by simp, ?_⟩
      intro s hs
      simp only [Option.map_some, Option.some.injEq] at hs
      exact ⟨g, (key r g h2).1, (key r g h2).2, hs.symm⟩
  | some g1 =>
    have hk1 := key l g1 h1
    cases h2 : lastGroup r k with
    | none =>
      rw [h1, h2] at h
      simp only [Option.some.injEq] at h
      subst h
      refine ⟨?_, by simp⟩
      intro s hs
      simp only [Option.map_some, Option.some.injEq] at hs
      exact ⟨g1, hk1.1, hk1.2, hs.symm⟩
    | some g =>
      rw [h1, h2] at h
      simp only [Option.some.injEq] at h
      subst h
      refine ⟨?_, ?_⟩
      · intro s hs
        simp only [Option.map_some, Option.some.injEq] at hs
        exact ⟨g1, hk1.1, hk1.2, hs.symm⟩
      · intro s hs
        simp only [Option.map_some, Option.some.injEq] at hs
        exact ⟨g, (key r g h2).1, (key r g h2).2, hs.symm⟩

example : mergeGroups [⟨10, 0, [⟨0, 3, .ints []⟩]⟩, ⟨11, 1, [⟨1, 4, .ints []⟩]⟩]
    [⟨21, 1, [⟨0, 5, .ints []⟩]⟩, ⟨25, 5, [⟨1, 6, .ints []⟩]⟩] =
    [(0, some (10, [⟨0, 3, .ints []⟩]), none),
     (1, some (11, [⟨1, 4, .ints []⟩]), some (21, [⟨0, 5, .ints []⟩])),
     (5, none, some (25, [⟨1, 6, .ints []⟩]))] := by decide

/-! ## C34 -/

instance : DecidableEq (Nat × PrettyCell × PrettyCell) := inferInstance

/-- What the row of index `i` of one pool should be: its pretty constant, nothing past its
end. -/
def cellOf (p : Pool) (pretty : Nat → PrettyCell) (i : Nat) : PrettyCell :=
  if i < p.length then pretty i else none

/-- C34 as stated, for pools all of whose constants can be rendered. It fails when the sizes
differ. -/
def C34_full : Prop := ∀ (l r : Pool) (lp rp : Nat → PrettyCell),
  (∀ i, i < l.length → prettyConst l i = .ok (lp i)) →
  (∀ i, i < r.length → prettyConst r i = .ok (rp i)) →
  prettyMergeConstants l r = .ok ((List.range' 1 (max l.length r.length - 1)).map
    fun i => (i, cellOf l lp i, cellOf r rp i))

/-- Pools of sizes 2 and 3: index 1 is listed twice, the second time without the right side. -/
theorem C34_full_fails : ¬ C34_full := by
  intro h
  have := h [none, some (.integer 1)] [none, some (.integer 1), some (.integer 2)]
    (fun i => if i = 1 then some ("int", .integer 1) else none)
    (fun i => if i = 1 then some ("int", .integer 1) else if i = 2 then some ("int", .integer 2) else none)
    (by decide) (by decide)
  revert this
  decide

theorem mergeBoth_ok (l r : Pool) (lp rp : Nat → PrettyCell)
    (hl : ∀ i, i < l.length → prettyConst l i = .ok (lp i))
    (hr : ∀ i, i < r.length → prettyConst r i = .ok (rp i)) (n start index : Nat)
    (h : start + n ≤ min l.length r.length) :
    mergeBoth l r n start index = .ok ((List.range' start n).map (fun i => (i, lp i, rp i)),
      if n = 0 then index else start + n - 1) := by
  induction n generalizing start index with
  | zero => rfl
  | succ n ih =>
    simp only [mergeBoth, hl start (by omega), hr start (by omega), bind, Except.bind,
      ih (start + 1) start (by omega), List.range'_succ, List.map_cons]
    congr 2
    split <;> simp <;> omega

theorem mergeOnlyLeft_ok (l : Pool) (lp : Nat → PrettyCell)
    (hl : ∀ i, i < l.length → prettyConst l i = .ok (lp i)) (n start : Nat)
    (h : start + n ≤ l.length) :
    mergeOnlyLeft l n start = .ok ((List.range' start n).map (fun i => (i, lp i, none))) := by
  induction n generalizing start with
  | zero => rfl
  | succ n ih =>
    simp only [mergeOnlyLeft, hl start (by omega), bind, Except.bind, ih (start + 1) (by omega),
      List.range'_succ, List.map_cons]

theorem mergeOnlyRight_ok (r : Pool) (rp : Nat → PrettyCell)
    (hr : ∀ i, i < r.length → prettyConst r i = .ok (rp i)) (n start : Nat)
    (h : start + n ≤ r.length) :
    mergeOnlyRight r n start = .ok ((List.range' start n).map (fun i => (i, none, rp i))) := by
  induction n generalizing start with
  | zero => rfl
  | succ n ih =>
    simp only [mergeOnlyRight, hr start (by omega), bind, Except.bind, ih (start + 1) (by omega),
      List.range'_succ, List.map_cons]

/-- C34, what is listed: the common indices on both sides; then, when the sizes differ, the
larger pool alone from the last common index on (again that index, when there is one). -/
theorem C34_exact (l r : Pool) (lp rp : Nat → PrettyCell) (h1 : 1 ≤ l.length) (h2 : 1 ≤ r.length)
    (hl : ∀ i, i < l.length → prettyConst l i = .ok (lp i))
    (hr : ∀ i, i < r.length → prettyConst r i = .ok (rp i)) :
    let m := min l.length r.length
    let s := max 1 (m - 1)
    prettyMergeConstants l r = .ok ((List.range' 1 (m - 1)).map (fun i => (i, lp i, rp i)) ++
      (if l.length > r.length then (List.range' s (l.length - s)).map (fun i => (i, lp i, none))
       else if r.length > l.length then
        (List.range' s (r.length - s)).map (fun i => (i, none, rp i))
       else [])) := by
  intro m s
  unfold prettyMergeConstants
  have hb := mergeBoth_ok l r lp rp hl hr (min l.length r.length - 1) 1 1 (by omega)
  simp only [hb, bind, Except.bind]
  have hs : (if min l.length r.length - 1 = 0 then 1 else 1 + (min l.length r.length - 1) - 1) = s := by
    show _ = max 1 (min l.length r.length - 1)
    split <;> omega
  rw [hs]
  have hsl : s ≤ max l.length r.length := by
    show max 1 (min l.length r.length - 1) ≤ _
    omega
  by_cases hc : l.length > r.length
  · rw [if_pos hc, if_pos hc, mergeOnlyLeft_ok l lp hl _ _ (by omega)]
  · rw [if_neg hc, if_neg hc]
    by_cases hc2 : r.length > l.length
    · rw [if_pos hc2, if_pos hc2, mergeOnlyRight_ok r rp hr _ _ (by omega)]
    · rw [if_neg hc2, if_neg hc2]; simp [m]

/-- C34 for pools of equal size (and for an empty pool against any). -/
theorem C34_merge_constants_partial (l r : Pool) (lp rp : Nat → PrettyCell)
    (h1 : 1 ≤ l.length) (h2 : 1 ≤ r.length)
    (hl : ∀ i, i < l.length → prettyConst l i = .ok (lp i))
    (hr : ∀ i, i < r.length → prettyConst r i = .ok (rp i))
    (hs : l.length = r.length ∨ min l.length r.length = 1) :
    prettyMergeConstants l r = .ok ((List.range' 1 (max l.length r.length - 1)).map
      fun i => (i, cellOf l lp i, cellOf r rp i)) := by
  rw [C34_exact l r lp rp h1 h2 hl hr]
  congr 1
  rcases hs with hs | hs
  · rw [if_neg (by omega), if_neg (by omega), List.append_nil, ← hs, Nat.min_self, Nat.max_self]
    apply List.map_congr_left
    intro i hi
    have := List.mem_range'_1.1 hi
    simp only [cellOf]
    rw [if_pos (by omega), if_pos (by omega)]
  · rw [hs]
    simp only [Nat.sub_self, List.range'_zero, List.map_nil, List.nil_append, Nat.max_eq_left, Nat.zero_le]
    by_cases hc : l.length > r.length
    · rw [if_pos hc, Nat.max_eq_left (by omega)]
      apply List.map_congr_left
      intro i hi
      have := List.mem_range'_1.1 hi
      simp only [cellOf]
      rw [if_pos (by omega), if_neg (by omega)]
    · rw [if_neg hc]
      by_cases hc2 : r.length > l.length
      · rw [if_pos hc2, Nat.max_eq_right (by omega)]
        apply List.map_congr_left
        intro i hi
        have := List.mem_range'_1.1 hi
        simp only [cellOf]
        rw [if_neg (by omega), if_pos (by omega)]
      · rw [if_neg hc2]
        have : max l.length r.length - 1 = 0 := by omega
        rw [this]; simp

/-- C34 for any sizes: every index of the larger pool is listed, in order, and only the last
common index can occur twice. -/
theorem C34_all_indices_partial (l r : Pool) (lp rp : Nat → PrettyCell)
    (h1 : 1 ≤ l.length) (h2 : 1 ≤ r.length)
    (hl : ∀ i, i < l.length → prettyConst l i = .ok (lp i))
    (hr : ∀ i, i < r.length → prettyConst r i = .ok (rp i)) :
    ∃ rows, prettyMergeConstants l r = .ok rows ∧
      (∀ i, 1 ≤ i → i < max l.length r.length → (i, cellOf l lp i, cellOf r rp i) ∈ rows) ∧
      (rows.map Prod.fst).Pairwise (· ≤ ·) := by
  refine ⟨_, C34_exact l r lp rp h1 h2 hl hr, ?_, ?_⟩
  · intro i hi1 hi2
    by_cases hm : i < min l.length r.length
    · refine List.mem_append_left _ (List.mem_map.2 ⟨i, List.mem_range'_1.2 (by omega), ?_⟩)
      simp only [cellOf]
      rw [if_pos (by omega), if_pos (by omega)]
    · refine List.mem_append_right _ ?_
      by_cases hc : l.length > r.length
      · rw [if_pos hc]
        refine List.mem_map.2 ⟨i, List.mem_range'_1.2 (by omega), ?_⟩
        simp only [cellOf]
        rw [if_pos (by omega), if_neg (by omega)]
      · rw [if_neg hc, if_pos (by omega)]
        refine List.mem_map.2 ⟨i, List.mem_range'_1.2 (by omega), ?_⟩
        simp only [cellOf]
        rw [if_neg (by omega), if_pos (by omega)]
  · have hr' : ∀ s n, ((List.range' s n)).Pairwise (· ≤ ·) := by
      intro s n
      exact (List.pairwise_lt_range' (s := s) (n := n)).imp (fun h => Nat.le_of_lt h)
    rw [List.map_append, List.pairwise_append]
    refine ⟨?_, ?_, ?_⟩
    · simpa [List.map_map, Function.comp_def] using hr' _ _
    · split
      · simpa [List.map_map, Function.comp_def] using hr' _ _
      · split
        · simpa [List.map_map, Function.comp_def] using hr' _ _
        · simp
    · intro a ha b hb
      simp only [List.map_map, Function.comp_def, List.map_id'] at ha
      have ha := List.mem_range'_1.1 ha
      have : ∀ n, b ∈ List.range' (max 1 (min l.length r.length - 1)) n → a ≤ b := by
        intro n hb
        have := List.mem_range'_1.1 hb
        omega
      split at hb
      · simp only [List.map_map, Function.comp_def, List.map_id'] at hb
        exact this _ hb
      · split at hb
        · simp only [List.map_map, Function.comp_def, List.map_id'] at hb
          exact this _ hb
        · simp at hb

example : prettyMergeConstants [none, some (.integer 1)] [none, some (.cls 1)] =
    .ok [(1, some ("int", .integer 1), some ("class", .cls 1))] ∧
    prettyMergeConstants [none] [none, some (.cls 1)] = .ok [(1, none, some ("class", .cls 1))] := by
  decide

end Javatools
