import Verif.Props.ClassFile
import Verif.Props.Opcodes
import Verif.Props.Lines
import Verif.Props.DirCopy
import Verif.Props.ManifestDiff
import Verif.Props.Zip

/-!
Properties that do not hold for all inputs: for exactly which inputs do they hold? Each theorem here
is an equivalence between the property, for one input, and a condition on this input.
-/

namespace Javatools

open Spec

/-! ## C12 -/

/-- C12, for exactly which attribute tables: every attribute is retrievable by its name if and only
if no later attribute of the same name has other bytes. -/
theorem C12_exact (es : List CpInfo) (as : List AttrS) (hl : as.length < 65536)
    (h : ∀ a ∈ as, a.Valid es) (lim : Nat) :
    (∃ r, (unpackAttribs (poolOf es) (lim + 1)).run (encAttrs as) = .ok r ∧
      ∀ a ∈ as, ∀ name : String, name.toList = textAt es a.name →
        getAttribute r name = some a.info) ↔
    ∀ l a m b n, as = l ++ a :: m ++ b :: n → textAt es a.name = textAt es b.name →
      a.info = b.info := by
  obtain ⟨r, hr, hg⟩ := C12_get_attribute es as hl h lim []
  rw [List.append_nil] at hr
  constructor
  · rintro ⟨r', hr', h'⟩ l a m b n rfl hn
    have : r' = r := by rw [hr] at hr'; exact (Except.ok.inj hr').symm
    subst this
    have h1 := h' a (by simp) (String.ofList (textAt es a.name)) (by simp)
    have h2 := h' b (by simp) (String.ofList (textAt es a.name)) (by simp [hn])
    rw [h1] at h2
    exact Option.some.inj h2
  · intro hs
    refine ⟨r, hr, ?_⟩
    intro a ha name hname
    rw [(hg name).1]
    have hmem : a ∈ as.filter (fun a => decide (textAt es a.name = name.toList)) := by
      simp [ha, hname]
    cases hlast : (as.filter (fun a => decide (textAt es a.name = name.toList))).getLast? with
    | none => rw [List.getLast?_eq_none_iff] at hlast; rw [hlast] at hmem; simp at hmem
    | some b =>
      simp only [Option.map_some, Option.some.injEq]
      obtain ⟨ys, hys⟩ := List.getLast?_eq_some_iff.1 hlast
      rw [hys] at hmem
      rcases List.mem_append.1 hmem with hm | hm
      · obtain ⟨s, t, rfl⟩ := List.append_of_mem hm
        have hb : b ∈ as.filter (fun a => decide (textAt es a.name = name.toList)) := by
          rw [hys]; simp
        have hsub : List.Sublist [a, b] as := by
          refine List.Sublist.trans ?_
            (List.filter_sublist (p := fun a => decide (textAt es a.name = name.toList)))
          rw [hys]
          have h1 : List.Sublist [a] (s ++ a :: t) := by simp
          exact List.Sublist.append h1 (List.Sublist.refl [b])
        obtain ⟨l1, l2, e, h1, h2⟩ := (List.append_sublist_iff (l₁ := [a]) (l₂ := [b])).1 hsub
        obtain ⟨x1, x2, rfl⟩ := List.append_of_mem (List.singleton_sublist.1 h1)
        obtain ⟨y1, y2, rfl⟩ := List.append_of_mem (List.singleton_sublist.1 h2)
        refine (hs x1 a (x2 ++ y1) b y2 (by rw [e]; simp) ?_).symm
        simp only [List.mem_filter, decide_eq_true_eq] at hb
        rw [hb.2, hname]
      · simp only [List.mem_singleton] at hm
        rw [hm]

/-- Two attributes of the same name and content do no harm. -/
example : ∀ l a m b n, ([⟨1, [0, 0]⟩, ⟨1, [0, 0]⟩] : List AttrS) = l ++ a :: m ++ b :: n →
    a.info = b.info := by
  intro l a m b n h
  have ha : a ∈ ([⟨1, [0, 0]⟩, ⟨1, [0, 0]⟩] : List AttrS) := by rw [h]; simp
  have hb : b ∈ ([⟨1, [0, 0]⟩, ⟨1, [0, 0]⟩] : List AttrS) := by rw [h]; simp
  simp only [List.mem_cons, List.not_mem_nil, or_false, or_self] at ha hb
  rw [ha, hb]

/-! ## C27 -/

theorem positions_len (pos : Nat) (is : List Instr) :
    (positions pos is).length = is.length := by
  induction is generalizing pos with
  | nil => rfl
  | cons i is ih => simp [positions, ih]

/-- C27, for exactly which programs: the disassembly of an encoded program shows its operands as they
are if and only if no bipush has a negative operand. -/
theorem C27_exact (is : List Instr) (hv : ∀ i ∈ is, i.Valid) :
    disassemble (encCode 0 is) =
      (List.zipWith (fun p i => ⟨p, i.opcode, jvmArgs i⟩) (positions 0 is) is, none) ↔
    ∀ v, .fixed 0x10 [v] ∈ is → 0 ≤ v := by
  refine ⟨fun h v hm => ?_, C27_disassemble_assemble_partial is hv⟩
  rw [C27_disassemble_assemble is hv] at h
  have h := (Prod.mk.inj h).1
  obtain ⟨k, hk, e⟩ := List.mem_iff_getElem.1 hm
  have hp : (positions 0 is).length = is.length := positions_len _ _
  have := congrArg (fun l => l[k]?) h
  simp only [List.getElem?_zipWith] at this
  rw [List.getElem?_eq_getElem (by omega : k < (positions 0 is).length), List.getElem?_eq_getElem hk,
    e] at this
  simp only [reportedArgs, jvmArgs, if_true, Option.some.injEq, Insn.mk.injEq, true_and,
    Args.ints.injEq, List.map_cons, List.map_nil, List.cons.injEq, and_true] at this
  omega

/-- `bipush 5; ireturn` is shown as it is and `bipush -1; ireturn` is not. -/
example : (disassemble (encCode 0 [.fixed 0x10 [5], .fixed 0xac []])).1.map Insn.args =
      [.ints [5], .ints []] ∧
    (disassemble (encCode 0 [.fixed 0x10 [-1], .fixed 0xac []])).1.map Insn.args =
      [.ints [255], .ints []] := by decide +kernel

/-! ## C30 -/

/-- C30, for exactly which instructions: an instruction yielded for any byte string has operands with
the values the JVM gives them if and only if it is not a bipush with an operand over 127. -/
theorem C30_exact (bc : Bytes) (i : Insn) (hi : i ∈ (disassemble bc).1) :
    HasJvmValues i ↔ ∀ v, i.code = 0x10 → i.args = .ints [v] → v < 128 := by
  by_cases hc : i.code = 0x10
  · obtain ⟨fmt, o, hf, hu⟩ := yielded _ _ _ _ hi
    rw [hc] at hf
    have h10 : getArgFormat 0x10 = .ok (.struct [.B]) := by decide
    rw [h10] at hf
    rw [← Except.ok.inj hf] at hu
    simp only [unpackArgs] at hu
    split at hu
    · cases hu
    · rename_i vs o' hv
      simp only [Except.ok.injEq, Prod.mk.injEq] at hu
      obtain ⟨_, _, a3, _, a5⟩ := opUnpack_inv hv
      have hop : operands 0x10 = some [.imm1] := by decide
      match vs, a3 with
      | [v], _ =>
        have hv := a5 (.B, v) (by simp)
        have hv0 : 0 ≤ v := hv.1
        unfold HasJvmValues
        rw [← hu.1, hc]
        simp only [hop, Option.some.injEq, true_implies, Args.ints.injEq, List.cons.injEq, and_true,
          forall_eq', List.zip_cons_cons, List.zip_nil_right, List.mem_singleton, forall_eq]
        simp only [Operand.InRange, Operand.signed, Operand.width, SRange]
        simp
        omega
  · exact ⟨fun _ v h => absurd h hc, fun _ => C30_jvm_values_partial bc i hi hc⟩

/-- `bipush 127` and `bipush 128`, as code units. -/
example : (disassemble [0x10, 127, 0x10, 128]).1 = [⟨0, 0x10, .ints [127]⟩, ⟨2, 0x10, .ints [128]⟩] := by
  decide +kernel

/-! ## C32 -/

/-- C32, for exactly which tables: the groups are those of the line numbers if and only if there is a
line number. -/
theorem C32_exact (lnt : List (Nat × Nat)) (dis : List Insn) :
    GroupsByLine lnt dis (codeByLines lnt dis) ↔ lnt ≠ [] := by
  refine ⟨?_, C32_grouping_partial lnt dis⟩
  rintro h rfl
  obtain ⟨_, _, hh, _⟩ := h.2.2.2.1 ⟨1, 1, dis⟩ (by simp [(C32_no_table dis).1])
  simp at hh

example : codeByLines [(0, 7), (1, 8)] [⟨0, 0, .ints []⟩, ⟨1, 0, .ints []⟩] =
      [⟨7, 0, [⟨0, 0, .ints []⟩]⟩, ⟨8, 1, [⟨1, 0, .ints []⟩]⟩] ∧
    codeByLines [] [⟨0, 0, .ints []⟩, ⟨1, 0, .ints []⟩] =
      [⟨1, 1, [⟨0, 0, .ints []⟩, ⟨1, 0, .ints []⟩]⟩] := by decide +kernel

/-! ## C58 -/

/-- C58, for exactly which archives: the sums are right if and only if no entry has the empty name. -/
theorem C58_exact (a : Archive) :
    (∃ files dirs tc tu, rollup a.entries = .ok (files, dirs, tc, tu) ∧
      files + dirs = a.entries.length ∧ files = (fileEntries a).length ∧
      tc = ((fileEntries a).map ZEntry.csize).sum ∧ tu = ((fileEntries a).map ZEntry.size).sum) ↔
    [] ∉ names a := by
  refine ⟨?_, C58_partial a⟩
  rintro ⟨_, _, _, _, h, _⟩ hm
  rw [C58_empty_name a hm] at h
  cases h

/-! ## C60 -/

/-- C60, for exactly which directories: one can be copied to where nothing exists yet if and only if
no file in it is more than one directory down. -/
theorem C60_exact (orig dest : Str) (F : Forest) (hF : F.Ok) :
    (∃ D ps, copydir orig dest F (fun _ => none) = .ok (D, ps) ∧
      (∀ p b t, FileAt F p b t → D p = some (some b)) ∧ PairsOf orig dest F ps) ↔
    ∀ p b t, FileAt F p b t → p.length ≤ 2 := by
  constructor
  · rintro ⟨D, ps, h, _⟩ p b t hp
    apply Classical.byContradiction
    intro hl
    have hne : p ≠ [] := by rintro rfl; simp at hl
    have hsplit := (List.dropLast_concat_getLast hne).symm
    generalize hd : p.dropLast = q at hsplit
    have hq : 2 ≤ q.length := by rw [← hd, List.length_dropLast]; omega
    rw [hsplit] at hp
    obtain ⟨e, he⟩ := C60_deep orig dest F (fun _ => none) hF _ _ b t hp
      hq (by simp) (by simp)
    rw [h] at he
    cases he
  · intro h
    obtain ⟨D, ps, h1, h2, h3, _⟩ := C60_partial orig dest F (fun _ => none) hF
      ⟨.inl rfl, by simp, fun _ _ => .inl rfl, fun p n b t hp hf => by
        have := h _ _ _ hf
        simp only [List.length_append, List.length_singleton] at this
        omega⟩
    exact ⟨D, ps, h1, h2, h3⟩

/-- One level of directories works, two levels do not, and two levels without a file do. -/
example : (copydir "o".toList "d".toList (.dir "a".toList (.file "g".toList [2] 0 .nil) .nil)
      (fun _ => none)).isOk = true ∧
    (copydir "o".toList "d".toList (.dir "a".toList (.dir "b".toList (.file "g".toList [2] 0 .nil) .nil)
      .nil) (fun _ => none)).isOk = false ∧
    (copydir "o".toList "d".toList (.dir "a".toList (.dir "b".toList .nil .nil) .nil)
      (fun _ => none)).isOk = true := by decide +kernel

/-! ## C70 -/

/-- C70, exactly which changes are ignored: there are keys, and every attribute that differs is
spelled like one of them. -/
theorem C70_exact (keys : List Str) (a b : Section) (ha : a.keys.Nodup) (hb : b.keys.Nodup) :
    keysIgnored keys a b = true ↔ keys ≠ [] ∧ ∀ k, DiffersAt a b k → k ∈ keys :=
  keysIgnored_iff keys a b ha hb

/-- So the answer is the intended one, for given keys, if and only if some keys are given or nothing
is to be ignored, and attributes are spelled as in the keys that are meant. -/
theorem C70_right (keys : List Str) (a b : Section) (ha : a.keys.Nodup) (hb : b.keys.Nodup) :
    (keysIgnored keys a b = true ↔ ∀ k, DiffersAt a b k → foldCase k ∈ keys.map foldCase) ↔
    ((∀ k, DiffersAt a b k → foldCase k ∈ keys.map foldCase) →
      keys ≠ [] ∧ ∀ k, DiffersAt a b k → k ∈ keys) := by
  rw [C70_exact keys a b ha hb]
  constructor
  · intro h; exact h.2
  · intro h
    exact ⟨fun h' k hd => List.mem_map.2 ⟨k, h'.2 k hd, rfl⟩, h⟩

/-- With no keys, not even a section without a difference is ignored. -/
example : keysIgnored [] [("A".toList, "1".toList)] [("A".toList, "1".toList)] = false ∧
    keysIgnored ["B".toList] [("A".toList, "1".toList)] [("A".toList, "1".toList)] = true := by
  decide +kernel

end Javatools
