import Verif.Props.Markup
import Verif.Props.HtmlTable
import Verif.Model.Member
/-
C157, continued: the texts of code, flags and platforms, which the report does not escape, never
contain a tag.
-/
namespace Javatools

theorem noTag_nat (n : Nat) : NoTag (natText n) := natText_not_mem n (by decide)

theorem noTag_int (v : Int) : NoTag (intText v) := intText_not_mem v (by decide) (by decide)

theorem noTag_append {a b : Str} (ha : NoTag a) (hb : NoTag b) : NoTag (a ++ b) := by
  simp only [NoTag, List.mem_append, not_or] at *
  exact ⟨ha, hb⟩

theorem noTag_join {sep : Str} {xs : List Str} (hs : NoTag sep) (h : ∀ x ∈ xs, NoTag x) :
    NoTag (joinWith sep xs) := by
  intro hc
  rcases mem_joinWith hc with h1 | ⟨x, hx, h1⟩
  · exact hs h1
  · exact h x hx h1

theorem noTag_args (a : Args) : NoTag (argsText a) := by
  have hs : NoTag ", ".toList := by unfold NoTag; decide
  have k1 : NoTag "(".toList := by unfold NoTag; decide
  have k2 : NoTag ")".toList := by unfold NoTag; decide
  have k3 : NoTag "[".toList := by unfold NoTag; decide
  have k4 : NoTag "]".toList := by unfold NoTag; decide
  have k5 : NoTag ",)".toList := by unfold NoTag; decide
  cases a with
  | ints vs =>
    refine noTag_join hs fun x hx => ?_
    obtain ⟨v, _, rfl⟩ := List.mem_map.1 hx
    exact noTag_int v
  | lookup d ps =>
    refine noTag_join hs fun x hx => ?_
    simp only [List.mem_cons, List.not_mem_nil, or_false] at hx
    rcases hx with rfl | rfl
    · exact noTag_int d
    · refine noTag_append (noTag_append k3 (noTag_join hs fun y hy => ?_)) k4
      obtain ⟨p, _, rfl⟩ := List.mem_map.1 hy
      exact noTag_append (noTag_append (noTag_append (noTag_append k1 (noTag_int _)) hs) (noTag_int _)) k2
  | table d lo hi js =>
    refine noTag_join hs fun x hx => ?_
    simp only [List.mem_cons, List.not_mem_nil, or_false] at hx
    rcases hx with rfl | rfl | rfl | rfl
    · exact noTag_int _
    · exact noTag_int _
    · exact noTag_int _
    · refine noTag_append (noTag_append k3 (noTag_join hs fun y hy => ?_)) k4
      obtain ⟨p, _, rfl⟩ := List.mem_map.1 hy
      exact noTag_append (noTag_append k1 (noTag_int _)) k5

theorem noTag_opname {code : Nat} {name : Str} (h : getOpnameByCode code = .ok name) : NoTag name := by
  unfold getOpnameByCode opLookup at h
  split at h
  · rename_i d hg
    simp only [Except.map, Except.ok.injEq] at h
    subst h
    have := PyDict.mem_of_get? hg
    simp only [opTable, List.mem_flatMap, List.mem_cons, Prod.mk.injEq, List.not_mem_nil,
      or_false] at this
    obtain ⟨d', h1, h2⟩ := this
    have tab : ∀ d ∈ opDefs, '<' ∉ d.name := by decide +kernel
    rcases h2 with h2 | h2
    · simp at h2
    · rw [h2.2]; exact tab d' h1
  · simp [Except.map] at h

theorem noTag_argCell {i : Insn} {s : Str} (h : argCell i = .ok s) : NoTag s := by
  unfold argCell at h
  split at h
  · simp at h
  · simp only [Except.ok.injEq] at h
    subst h
    exact noTag_args _
  · split at h
    · simp at h
    · rename_i t hf
      simp only [Except.ok.injEq] at h
      subst h
      have ht : NoTag t := by
        unfold firstArg at hf
        split at hf <;> simp only [Except.ok.injEq, reduceCtorEq] at hf <;> subst hf <;>
          exact noTag_int _
      have : NoTag ['#'] := by unfold NoTag; decide
      exact noTag_append this ht

/-- No cell has a `<` in its text. -/
def PlainCells (rows : List (List Cell)) : Prop := ∀ r ∈ rows, ∀ c ∈ r, NoTag c.text

theorem plain_insn {i : Insn} {cs : List Cell} (h : insnCells i = .ok cs) : ∀ c ∈ cs, NoTag c.text := by
  unfold insnCells at h
  split at h
  · simp at h
  · rename_i name hn
    split at h
    · simp at h
    · rename_i a ha
      simp only [Except.ok.injEq] at h
      subst h
      intro c hc
      simp only [List.mem_cons, List.not_mem_nil, or_false] at hc
      rcases hc with rfl | rfl | rfl
      · exact noTag_nat _
      · exact noTag_opname hn
      · exact noTag_argCell ha

theorem noTag_nil : NoTag [] := by simp [NoTag]

theorem plain_side {rowspan lastrow : Nat} {side : MergeSide} {first last last' : Bool}
    {i : Option Insn} {cs : List Cell}
    (h : sideCells rowspan lastrow side first last i = .ok (cs, last')) :
    ∀ c ∈ cs, NoTag c.text := by
  unfold sideCells at h
  split at h
  · split at h
    · split at h
      · simp at h
      · rename_i line hl
        split at h
        · simp at h
        · rename_i cs' hcs
          simp only [Except.ok.injEq, Prod.mk.injEq] at h
          obtain ⟨rfl, _⟩ := h
          intro c hc
          rcases List.mem_cons.1 hc with rfl | hc
          · unfold sideLine at hl
            split at hl <;> simp only [Except.ok.injEq, reduceCtorEq] at hl
            subst hl
            exact noTag_nat _
          · exact plain_insn hcs c hc
    · split at h
      · simp at h
      · rename_i cs' hcs
        simp only [Except.ok.injEq, Prod.mk.injEq] at h
        obtain ⟨rfl, _⟩ := h
        exact plain_insn hcs
  · split at h
    · simp only [Except.ok.injEq, Prod.mk.injEq] at h
      obtain ⟨rfl, _⟩ := h
      simp
    · split at h <;>
      · simp only [Except.ok.injEq, Prod.mk.injEq] at h
        obtain ⟨rfl, _⟩ := h
        intro c hc
        simp only [List.mem_cons, List.not_mem_nil, or_false] at hc
        subst hc
        exact noTag_nil

theorem plain_codeRows {rel : Int} {rowspan lastrow : Nat} {left right : MergeSide}
    (l : List (Option Insn × Option Insn)) (first last : Bool) {rows : List (List Cell)}
    (h : codeRows rel rowspan lastrow left right first last l = .ok rows) : PlainCells rows := by
  induction l generalizing first last rows with
  | nil =>
    simp only [codeRows, Except.ok.injEq] at h
    subst h
    simp [PlainCells]
  | cons p rest ih =>
    obtain ⟨x, y⟩ := p
    unfold codeRows at h
    split at h
    · simp at h
    · rename_i lc last1 h1
      split at h
      · simp at h
      · rename_i rc last2 h2
        split at h
        · simp at h
        · rename_i rows' h3
          simp only [Except.ok.injEq] at h
          subst h
          intro r hr
          rcases List.mem_cons.1 hr with rfl | hr
          · intro c hc
            simp only [List.mem_append] at hc
            rcases hc with (hc | hc) | hc
            · split at hc
              · simp only [List.mem_cons, List.not_mem_nil, or_false] at hc
                subst hc
                exact noTag_int _
              · simp at hc
            · exact plain_side h1 c hc
            · exact plain_side h2 c hc
          · exact ih _ _ h3 r hr

theorem plain_concat {β : Type} (f : β → Res (List (List Cell)))
    (hf : ∀ x rows, f x = .ok rows → PlainCells rows) (l : List β) {rows : List (List Cell)}
    (h : concatRes f l = .ok rows) : PlainCells rows := by
  induction l generalizing rows with
  | nil =>
    simp only [concatRes, Except.ok.injEq] at h
    subst h
    simp [PlainCells]
  | cons x l ih =>
    unfold concatRes at h
    split at h
    · simp at h
    · rename_i ys hy
      split at h
      · simp at h
      · rename_i zs hz
        simp only [Except.ok.injEq] at h
        subst h
        intro r hr
        rcases List.mem_append.1 hr with hr | hr
        · exact hf x ys hy r hr
        · exact ih hz r hr

theorem plain_plainRows (rowspan : Nat) (g : LineGroup) (is : List Insn) (first : Bool)
    {rows : List (List Cell)} (h : plainRows rowspan g first is = .ok rows) : PlainCells rows := by
  induction is generalizing first rows with
  | nil =>
    simp only [plainRows, Except.ok.injEq] at h
    subst h
    simp [PlainCells]
  | cons i is ih =>
    unfold plainRows at h
    split at h
    · simp at h
    · rename_i cs hcs
      split at h
      · simp at h
      · rename_i rows' h3
        simp only [Except.ok.injEq] at h
        subst h
        intro r hr
        rcases List.mem_cons.1 hr with rfl | hr
        · intro c hc
          rcases List.mem_append.1 hc with hc | hc
          · split at hc
            · simp only [List.mem_cons, List.not_mem_nil, or_false] at hc
              rcases hc with rfl | rfl
              · exact noTag_int _
              · exact noTag_nat _
            · simp at hc
          · exact plain_insn hcs c hc
        · exact ih _ h3 r hr

/-- C157: the code of a method, whatever it is, puts no tag into the report: the hypothesis of
`C157_partial` holds for the texts of its table. -/
theorem C157_code (isChange : Bool) (l r : Option CodeInfo) {dual : Bool}
    {table : Option (List (List Cell))} (h : codeDetails isChange l r = .ok (dual, table))
    (v : Verdict) : ∀ t ∈ (CodeView.mk v dual table).raws, '<' ∉ t := by
  have key : ∀ rows, table = some rows → PlainCells rows := by
    rintro rows rfl
    unfold codeDetails at h
    split at h
    · split at h
      · simp at h
      · rename_i rows' hr
        simp only [Except.ok.injEq, Prod.mk.injEq, Option.some.injEq] at h
        obtain ⟨_, rfl⟩ := h
        unfold changedCode at hr
        split at hr
        · simp at hr
        · exact plain_concat _ (fun p rows hp => plain_codeRows _ _ _ hp) _ hr
    · split at h
      · simp at h
      · rename_i t ht
        simp only [Except.ok.injEq, Prod.mk.injEq] at h
        obtain ⟨_, rfl⟩ := h
        unfold unchangedCode at ht
        split at ht
        · simp at ht
        · split at ht
          · simp at ht
          · split at ht
            · simp at ht
            · rename_i rows' hr
              simp only [Except.ok.injEq, Option.some.injEq] at ht
              subst ht
              exact plain_concat _ (fun g rows hp => plain_plainRows _ _ _ _ hp) _ hr
  intro t ht
  cases table with
  | none => simp [CodeView.raws] at ht
  | some rows =>
    simp only [CodeView.raws, List.mem_flatMap, List.mem_map] at ht
    obtain ⟨r, hr, c, hc, rfl⟩ := ht
    exact key rows rfl r hr c hc

/-- C157: the words for the flags of classes and members and for platforms have no tag. -/
theorem C157_words :
    (∀ c : ClassInfo, ∀ w ∈ c.prettyAccessFlags, '<' ∉ w.toList) ∧
    (∀ (m : Member) b, ∀ w ∈ m.prettyAccessFlags b, '<' ∉ w.toList) ∧
    (∀ major minor w, platformFromVersion major minor = some w → '<' ∉ w.toList) := by
  have tab : ∀ w ∈ ["public", "final", "abstract", "@interface", "interface", "enum", "private",
      "protected", "static", "strict", "native", "module", "synthetic", "synchronized", "bridge",
      "varargs", "transient", "volatile"], '<' ∉ w.toList := by decide +kernel
  refine ⟨fun c w hw => tab w ?_, fun m b w hw => tab w ?_, fun major minor w hw => ?_⟩
  · unfold ClassInfo.prettyAccessFlags at hw
    simp only [List.mem_append] at hw
    grind
  · have one : ∀ (p : Bool) (x : String), w ∈ (if p = true then [x] else []) → w = x := by
      intro p x h
      cases p <;> simp at h
      exact h
    unfold Member.prettyAccessFlags at hw
    simp only [List.mem_append] at hw
    rcases hw with ((((((((((h | h) | h) | h) | h) | h) | h) | h) | h) | h) | h) | h
    all_goals first
      | (have := one _ _ h; subst this; decide)
      | skip
    split at h
    · simp only [List.mem_append] at h
      rcases h with (h | h) | h <;> (have := one _ _ h; subst this; decide)
    · simp only [List.mem_append] at h
      rcases h with h | h <;> (have := one _ _ h; subst this; decide)
  · unfold platformFromVersion at hw
    cases hp : platforms.find? (inRow (major, minor)) with
    | none => simp [hp] at hw
    | some row =>
      simp only [hp, Option.map, Option.some.injEq] at hw
      subst hw
      have tab : ∀ row ∈ platforms, '<' ∉ row.2.2.toList := by decide +kernel
      exact tab row (List.mem_of_find?_eq_some hp)

/-- A table with a constant's index and a `tableswitch`. -/
example : (CodeView.raws ⟨⟨true, false⟩, true, some [[⟨1, 1, argsText (.table 5 0 0 [7])⟩]]⟩) =
    ["5, 0, 0, [(7,)]".toList] := by decide +kernel

end Javatools
