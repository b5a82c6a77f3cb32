import Verif.Model.Accessors
import Verif.Spec.ClassFile
import Verif.Spec.PoolTypes
import Verif.Props.ClassFile
import Verif.Props.Member
import Verif.Props.Attrs
import Verif.Proofs.Dict
import Verif.Proofs.ClassDiff
/-
C149-C152: the source debug extension, the answers objects keep, the constants of a pool, and
class objects that are unpacked again.
-/
namespace Javatools
open Spec

/-! ## C149 -/

/-- The full C149: the accessor gives the text of the attribute. -/
def C149_full : Prop :=
  ∀ (c : ClassInfo) (us : List Nat) (s : Str), (∀ u ∈ us, u < 65536) → us ≠ [] →
    utf16Text us = some s →
    getAttribute c.attribs "SourceDebugExtension" = some (mutf8 us) →
    c.getSourceDebugExtension = some s

/-- A class with one attribute. -/
def sdeClass (raw : Bytes) : ClassInfo :=
  ⟨(52, 0), [], 0, 0, 0, [], [], [], [(.str "SourceDebugExtension".toList, raw)]⟩

theorem C149_full_fails : ¬ C149_full := by
  intro h
  have := h (sdeClass [0x53, 0x4D]) [0x53, 0x4D] "SM".toList (by decide) (by decide) (by decide)
    (by decide +kernel)
  exact absurd this (by decide +kernel)

theorem byteRepr_length (q : Char) (b : UInt8) : 1 ≤ (byteRepr q b).length := by
  unfold byteRepr
  grind

theorem flatMap_byteRepr_length (q : Char) (bs : Bytes) :
    bs.length ≤ (bs.flatMap (byteRepr q)).length := by
  induction bs with
  | nil => simp
  | cons b bs ih =>
    have := byteRepr_length q b
    simp only [List.flatMap_cons, List.length_append, List.length_cons]
    omega

theorem mutf8_length (us : List Nat) : us.length ≤ (mutf8 us).length := by
  induction us with
  | nil => simp
  | cons u us ih =>
    have h : 1 ≤ (mutf8Unit u).length := by
      unfold mutf8Unit
      repeat' split
      all_goals simp
    simp only [mutf8, List.flatMap_cons, List.length_append, List.length_cons] at ih ⊢
    omega

theorem utf16Text_length (us : List Nat) (s : Str) (h : utf16Text us = some s) :
    s.length ≤ us.length := by
  fun_induction utf16Text us generalizing s with
  | case1 => simp at h; simp [← h]
  | case2 u us hu ih =>
    simp only [Option.map_eq_some_iff] at h
    obtain ⟨t, h1, h2⟩ := h
    have := ih t h1
    subst h2
    simp only [List.length_cons]; omega
  | case3 => simp at h
  | case4 u hu v us' hv ih =>
    simp only [Option.map_eq_some_iff] at h
    obtain ⟨t, h1, h2⟩ := h
    have := ih t h1
    subst h2
    simp only [List.length_cons]; omega
  | case5 => simp at h

/-- C149, what happens instead: a class with a non-empty extension never gives its text, but
the text Python shows for the bytes, `b'...'`. -/
theorem C149_never (c : ClassInfo) (us : List Nat) (s : Str) (hu : us ≠ [])
    (hs : utf16Text us = some s)
    (ha : getAttribute c.attribs "SourceDebugExtension" = some (mutf8 us)) :
    ∃ t, c.getSourceDebugExtension = some t ∧ t ≠ s ∧ t.head? = some 'b' ∧
      s.length + 3 ≤ t.length := by
  have h1 := utf16Text_length us s hs
  have h2 := mutf8_length us
  have h3 : mutf8 us ≠ [] := by
    intro e
    rw [e] at h2
    cases us with
    | nil => exact hu rfl
    | cons => simp at h2
  have h4 : c.getSourceDebugExtension = some (bytesStr (mutf8 us)) := by
    unfold ClassInfo.getSourceDebugExtension
    rw [ha]
    cases hm : mutf8 us with
    | nil => exact absurd hm h3
    | cons b bs => rfl
  have h5 := flatMap_byteRepr_length (bytesQuote (mutf8 us)) (mutf8 us)
  have h6 : s.length + 3 ≤ (bytesStr (mutf8 us)).length := by
    unfold bytesStr
    simp only [List.length_cons, List.length_append, List.length_nil]
    omega
  refine ⟨_, h4, ?_, rfl, h6⟩
  intro e
  rw [e] at h6
  omega

/-! ### Reading the text back -/

/-- The number a hexadecimal digit stands for. -/
def hexValue (c : Char) : Nat :=
  if '0' ≤ c ∧ c ≤ '9' then c.toNat - 48 else c.toNat - 87

theorem hexValue_hexDigit (n : Nat) (h : n < 16) : hexValue (hexDigit n) = n := by
  revert n; decide

/-- Read one byte of a Python bytes literal. -/
def unescapeByte : Str → Option (Nat × Str)
  | '\\' :: 'x' :: a :: b :: rest => some (16 * hexValue a + hexValue b, rest)
  | '\\' :: 't' :: rest => some (9, rest)
  | '\\' :: 'n' :: rest => some (10, rest)
  | '\\' :: 'r' :: rest => some (13, rest)
  | '\\' :: c :: rest => some (c.toNat, rest)
  | c :: rest => some (c.toNat, rest)
  | [] => none

theorem ofNat_toNat_byte (b : UInt8) : (Char.ofNat b.toNat).toNat = b.toNat := by
  have : b.toNat < 256 := b.toNat_lt
  have h : b.toNat.isValidChar := by simp only [Nat.isValidChar]; omega
  simp only [Char.ofNat, h, dif_pos]
  rfl

theorem unescapeByte_plain (c : Char) (rest : Str) (h : c ≠ '\\') :
    unescapeByte (c :: rest) = some (c.toNat, rest) := by
  unfold unescapeByte
  split <;> simp_all

theorem unescapeByte_byteRepr (q : Char) (hq : q = '\'' ∨ q = '"') (b : UInt8) (rest : Str) :
    unescapeByte (byteRepr q b ++ rest) = some (b.toNat, rest) := by
  have hb : b.toNat < 256 := b.toNat_lt
  have hc := ofNat_toNat_byte b
  unfold byteRepr
  simp only
  split
  · rename_i h
    rcases h with h | h
    · rw [h] at hc ⊢
      rcases hq with rfl | rfl <;> simp [unescapeByte, ← hc]
    · rw [h] at hc ⊢
      simp [unescapeByte, ← hc]
  split
  · rename_i h; rw [h] at hc; simp [unescapeByte, ← hc]
  split
  · rename_i h; rw [h] at hc; simp [unescapeByte, ← hc]
  split
  · rename_i h; rw [h] at hc; simp [unescapeByte, ← hc]
  split
  · simp only [List.cons_append, List.nil_append, unescapeByte]
    rw [hexValue_hexDigit _ (by omega), hexValue_hexDigit _ (by omega)]
    congr 2; omega
  · rename_i h1 _ _ _ _
    simp only [List.cons_append, List.nil_append]
    rw [unescapeByte_plain _ _ (fun e => h1 (Or.inr e)), hc]

theorem flatMap_byteRepr_injective (q : Char) (hq : q = '\'' ∨ q = '"') (as bs : Bytes)
    (h : as.flatMap (byteRepr q) = bs.flatMap (byteRepr q)) : as = bs := by
  induction as generalizing bs with
  | nil =>
    cases bs with
    | nil => rfl
    | cons b bs =>
      have := byteRepr_length q b
      have h' := congrArg List.length h
      simp only [List.flatMap_nil, List.flatMap_cons, List.length_nil, List.length_append] at h'
      omega
  | cons a as ih =>
    cases bs with
    | nil =>
      have := byteRepr_length q a
      have h' := congrArg List.length h
      simp only [List.flatMap_nil, List.flatMap_cons, List.length_nil, List.length_append] at h'
      omega
    | cons b bs =>
      simp only [List.flatMap_cons] at h
      have h1 := unescapeByte_byteRepr q hq a (as.flatMap (byteRepr q))
      rw [h, unescapeByte_byteRepr q hq b] at h1
      simp only [Option.some.injEq, Prod.mk.injEq] at h1
      rw [UInt8.toNat.inj h1.1.symm, ih bs h1.2.symm]

theorem bytesQuote_cases (bs : Bytes) : bytesQuote bs = '\'' ∨ bytesQuote bs = '"' := by
  unfold bytesQuote
  split <;> simp

theorem bytesStr_injective (as bs : Bytes) (h : bytesStr as = bytesStr bs) : as = bs := by
  unfold bytesStr at h
  simp only [List.cons.injEq, true_and] at h
  obtain ⟨h1, h2⟩ := h
  rw [h1] at h2
  exact flatMap_byteRepr_injective _ (bytesQuote_cases bs) _ _ (List.append_cancel_right h2)

/-- C149, the part that holds: there is no answer exactly when there is no attribute or an
empty one, and two classes that give the same answer have the same extension, byte for
byte. -/
theorem C149_partial (c d : ClassInfo) :
    (c.getSourceDebugExtension = none ↔
      getAttribute c.attribs "SourceDebugExtension" = none ∨
      getAttribute c.attribs "SourceDebugExtension" = some []) ∧
    (∀ t, c.getSourceDebugExtension = some t → d.getSourceDebugExtension = some t →
      getAttribute c.attribs "SourceDebugExtension" =
        getAttribute d.attribs "SourceDebugExtension") := by
  unfold ClassInfo.getSourceDebugExtension
  cases h1 : getAttribute c.attribs "SourceDebugExtension" with
  | none => simp
  | some as =>
    cases as with
    | nil => simp
    | cons a as =>
      refine ⟨by simp, ?_⟩
      intro t ht
      cases h2 : getAttribute d.attribs "SourceDebugExtension" with
      | none => simp
      | some bs =>
        cases bs with
        | nil => simp
        | cons b bs =>
          intro ht'
          simp only [Option.some.injEq] at ht ht' ⊢
          exact bytesStr_injective _ _ (ht.trans ht'.symm)

example : (sdeClass [0x53, 0x27, 0x0A, 0xC3, 0x5C]).getSourceDebugExtension =
    some "b\"S'\\n\\xc3\\\\\"".toList := by decide +kernel
example : (sdeClass [0x22, 0x27]).getSourceDebugExtension = some "b'\"\\''".toList := by
  decide +kernel

/-! ## C150 -/

/-- A slot is empty or holds what a fresh computation gives. -/
def SlotOK {α : Type} (slot : Option α) (fresh : Res α) : Prop :=
  ∀ v, slot = some v → fresh = .ok v

theorem cached_ok {α : Type} {slot : Option α} {fresh : Res α} (h : SlotOK slot fresh) :
    (cached slot fresh).1 = fresh ∧ SlotOK (cached slot fresh).2 fresh := by
  unfold cached
  cases slot with
  | some v => exact ⟨(h v rfl).symm, h⟩
  | none =>
    cases hf : fresh with
    | error e => exact ⟨rfl, by intro v hv; simp at hv⟩
    | ok v => exact ⟨rfl, by intro w hw; simp at hw; rw [hw]⟩

section
variable (lim depth : Nat)

/-- What a member's accessor has to answer: the attribute, decoded. -/
def memberAnswer (m : Member) (pool : Pool) : MemberCall → AnnoAnswer
  | .annos => .list (getAnnotations m.attribs pool lim depth "RuntimeVisibleAnnotations")
  | .invis => .list (getAnnotations m.attribs pool lim depth "RuntimeInvisibleAnnotations")
  | .params => .lists (getParamAnnotations m.attribs pool lim depth
      "RuntimeVisibleParameterAnnotations")
  | .invisParams => .lists (getParamAnnotations m.attribs pool lim depth
      "RuntimeInvisibleParameterAnnotations")

def MemberCache.OK (m : Member) (pool : Pool) (st : MemberCache) : Prop :=
  SlotOK st.annos (getAnnotations m.attribs pool lim depth "RuntimeVisibleAnnotations") ∧
  SlotOK st.invis (getAnnotations m.attribs pool lim depth "RuntimeInvisibleAnnotations") ∧
  SlotOK st.params (getParamAnnotations m.attribs pool lim depth
    "RuntimeVisibleParameterAnnotations") ∧
  SlotOK st.invisParams (getParamAnnotations m.attribs pool lim depth
    "RuntimeInvisibleParameterAnnotations")

theorem memberStep_ok (m : Member) (pool : Pool) (st : MemberCache)
    (h : MemberCache.OK lim depth m pool st) (call : MemberCall) :
    (memberStep lim depth m pool st call).1 = memberAnswer lim depth m pool call ∧
    MemberCache.OK lim depth m pool (memberStep lim depth m pool st call).2 := by
  obtain ⟨h1, h2, h3, h4⟩ := h
  cases call with
  | annos =>
    simp only [memberStep, memberAnswer, (cached_ok h1).1, true_and]
    exact ⟨(cached_ok h1).2, h2, h3, h4⟩
  | invis =>
    simp only [memberStep, memberAnswer, (cached_ok h2).1, true_and]
    exact ⟨h1, (cached_ok h2).2, h3, h4⟩
  | params =>
    simp only [memberStep, memberAnswer, (cached_ok h3).1, true_and]
    exact ⟨h1, h2, (cached_ok h3).2, h4⟩
  | invisParams =>
    simp only [memberStep, memberAnswer, (cached_ok h4).1, true_and]
    exact ⟨h1, h2, h3, (cached_ok h4).2⟩

theorem memberRun_ok (m : Member) (pool : Pool) (calls : List MemberCall) (st : MemberCache)
    (h : MemberCache.OK lim depth m pool st) :
    MemberCache.OK lim depth m pool (memberRun lim depth m pool st calls) := by
  induction calls generalizing st with
  | nil => exact h
  | cons call calls ih => exact ih _ (memberStep_ok lim depth m pool st h call).2

/-- C150, members: after any history of calls, raising or not, each accessor answers as on a
fresh object. -/
theorem C150_member (m : Member) (pool : Pool) (calls : List MemberCall) (call : MemberCall) :
    (memberStep lim depth m pool (memberRun lim depth m pool .new calls) call).1 =
      memberAnswer lim depth m pool call :=
  (memberStep_ok lim depth m pool _ (memberRun_ok lim depth m pool calls _
    ⟨by simp [SlotOK, MemberCache.new], by simp [SlotOK, MemberCache.new],
     by simp [SlotOK, MemberCache.new], by simp [SlotOK, MemberCache.new]⟩) call).1

end

/-- What an accessor of code has to answer. -/
def codeAnswer (c : CodeInfo) : CodeCall → CodeAnswer
  | .lnt => .lnt c.getLinenumbertable
  | .relative => .relative (c.getLinenumbertable.map relativeTable)
  | .line pc => .line (c.getLinenumbertable.map fun t => lineForOffset t pc)
  | .byLines => .byLines c.iterCodeByLines
  | .dis => .dis c.disassemble

def CodeCache.OK (c : CodeInfo) (st : CodeCache) : Prop :=
  SlotOK st.lnt c.getLinenumbertable ∧ SlotOK st.dis c.disassemble

theorem lntStep_ok (c : CodeInfo) (st : CodeCache) (h : st.OK c) :
    (lntStep c st).1 = c.getLinenumbertable ∧ (lntStep c st).2.OK c :=
  ⟨(cached_ok h.1).1, (cached_ok h.1).2, h.2⟩

theorem disStep_ok (c : CodeInfo) (st : CodeCache) (h : st.OK c) :
    (disStep c st).1 = c.disassemble ∧ (disStep c st).2.OK c :=
  ⟨(cached_ok h.2).1, h.1, (cached_ok h.2).2⟩

theorem codeStep_ok (c : CodeInfo) (st : CodeCache) (h : st.OK c) (call : CodeCall) :
    (codeStep c st call).1 = codeAnswer c call ∧ (codeStep c st call).2.OK c := by
  have h1 := lntStep_ok c st h
  cases call with
  | lnt => simp only [codeStep, codeAnswer, h1.1, true_and]; exact h1.2
  | relative => simp only [codeStep, codeAnswer, h1.1, true_and]; exact h1.2
  | line pc => simp only [codeStep, codeAnswer, h1.1, true_and]; exact h1.2
  | dis => simp only [codeStep, codeAnswer, (disStep_ok c st h).1, true_and]; exact (disStep_ok c st h).2
  | byLines =>
    simp only [codeStep, codeAnswer, CodeInfo.iterCodeByLines]
    cases hl : lntStep c st with
    | mk r st' =>
      rw [hl] at h1
      obtain ⟨h1, h2⟩ := h1
      simp only at h1 h2
      cases r with
      | error e =>
        simp only [← h1, bind, Except.bind, true_and]; exact h2
      | ok lnt =>
        have h3 := disStep_ok c st' h2
        simp only [← h1, bind, Except.bind, h3.1]
        refine ⟨?_, h3.2⟩
        cases c.disassemble <;> rfl

theorem codeRun_ok (c : CodeInfo) (calls : List CodeCall) (st : CodeCache) (h : st.OK c) :
    (codeRun c st calls).OK c := by
  induction calls generalizing st with
  | nil => exact h
  | cons call calls ih => exact ih _ (codeStep_ok c st h call).2

/-- C150, code: line numbers, relative line numbers, the line of an offset, the instructions
and the instructions by line are the same after any history of calls. -/
theorem C150_code (c : CodeInfo) (calls : List CodeCall) (call : CodeCall) :
    (codeStep c (codeRun c .new calls) call).1 = codeAnswer c call :=
  (codeStep_ok c _ (codeRun_ok c calls _
    ⟨by simp [SlotOK, CodeCache.new], by simp [SlotOK, CodeCache.new]⟩) call).1

section
variable (glob : Str → Str → Bool) (lim depth : Nat)

/-- What a class object made of `c` has to answer. -/
def classAnswer (c : ClassInfo) : ClassAsk → ClassAnswer
  | .version => .version c.version
  | .platform => .platform (platformFromVersion c.version.1 c.version.2)
  | .access => .access c.access
  | .const i => .value (deref c.pool lim i)
  | .this => .value (c.getThis lim)
  | .super => .value (c.getSuper lim)
  | .interfaces => .values (c.getInterfaces lim)
  | .fields => .members c.fields
  | .methods => .members c.methods
  | .attrib name => .buffer (getAttribute c.attribs name)
  | .annos => .annos (getAnnotations c.attribs c.pool lim depth "RuntimeVisibleAnnotations")
  | .invis => .annos (getAnnotations c.attribs c.pool lim depth "RuntimeInvisibleAnnotations")
  | .provides ig p => .symbols ((c.providesSeq lim p).map fun l =>
      l.eraseDups.filter fun x => !fnmatchesWith glob x ig)
  | .requires ig => .symbols (requiresValue glob c lim ig)

/-- The object is about `c`, and what it keeps is right for `c`. -/
def ClassObj.OK (c : ClassInfo) (o : ClassObj) : Prop :=
  o.info = c ∧
  SlotOK o.annos (getAnnotations c.attribs c.pool lim depth "RuntimeVisibleAnnotations") ∧
  SlotOK o.invis (getAnnotations c.attribs c.pool lim depth "RuntimeInvisibleAnnotations") ∧
  CacheOK c lim o.api

theorem ClassObj.step_ok (c : ClassInfo) (o : ClassObj) (h : ClassObj.OK lim depth c o)
    (q : ClassAsk) :
    (o.step glob lim depth q).1 = classAnswer glob lim depth c q ∧
    ClassObj.OK lim depth c (o.step glob lim depth q).2 := by
  obtain ⟨rfl, h2, h3, h4⟩ := h
  cases q with
  | annos =>
    simp only [ClassObj.step, classAnswer, (cached_ok h2).1, true_and]
    exact ⟨rfl, (cached_ok h2).2, h3, h4⟩
  | invis =>
    simp only [ClassObj.step, classAnswer, (cached_ok h3).1, true_and]
    exact ⟨rfl, h2, (cached_ok h3).2, h4⟩
  | provides ig p =>
    simp only [ClassObj.step, classAnswer, (getProvides_ok glob o.info lim _ h4 ig p).1, true_and]
    exact ⟨rfl, h2, h3, (getProvides_ok glob o.info lim _ h4 ig p).2⟩
  | requires ig =>
    simp only [ClassObj.step, classAnswer, (getRequires_ok glob o.info lim _ h4 ig).1, true_and]
    exact ⟨rfl, h2, h3, (getRequires_ok glob o.info lim _ h4 ig).2⟩
  | _ => exact ⟨rfl, rfl, h2, h3, h4⟩

theorem ClassObj.asked_ok (c : ClassInfo) (calls : List ClassAsk) (o : ClassObj)
    (h : ClassObj.OK lim depth c o) : ClassObj.OK lim depth c (o.asked glob lim depth calls) := by
  induction calls generalizing o with
  | nil => exact h
  | cons call calls ih => exact ih _ (ClassObj.step_ok glob lim depth c o h call).2

theorem unpackClass_attribs_nodup (d : Bytes) (c : ClassInfo)
    (h : (unpackClassProg lim).run d = .ok c) : c.attribs.keys.Nodup := by
  refine Prog.Post.run (P := fun c : ClassInfo => c.attribs.keys.Nodup) ?_ _ c h
  refine (Prog.Post.trivial readMagic).bind fun m _ => ?_
  split
  · trivial
  refine (Prog.Post.trivial u2u2).bind fun v _ => ?_
  refine (Prog.Post.trivial unpackPool).bind fun pool _ => ?_
  refine (Prog.Post.trivial u2u2u2).bind fun h _ => ?_
  refine (Prog.Post.trivial u2).bind fun n _ => ?_
  refine (Prog.Post.trivial (u2s n)).bind fun ifs _ => ?_
  refine (Prog.Post.trivial (counted (unpackMember pool lim false))).bind fun fs _ => ?_
  refine (Prog.Post.trivial (counted (unpackMember pool lim true))).bind fun ms _ => ?_
  refine Prog.Post.bind (P := fun a : Attribs => a.keys.Nodup) ?_ fun a ha => ha
  exact (Prog.Post.trivial _).bind fun ps _ => PyDict.nodup_keys_ofPairs ps

/-- C150, classes: an object that was unpacked once answers, after any history of calls, what
the class says. -/
theorem C150_class (d : Bytes) (c : ClassInfo) (o : ClassObj)
    (hc : (unpackClassProg lim).run d = .ok c) (ho : ClassObj.new.unpack lim d = .ok o)
    (calls : List ClassAsk) (q : ClassAsk) :
    ((o.asked glob lim depth calls).step glob lim depth q).1 =
      classAnswer glob lim depth c q := by
  refine (ClassObj.step_ok glob lim depth _ _ (ClassObj.asked_ok glob lim depth _ calls o ?_) q).1
  simp only [ClassObj.unpack, hc, bind, Except.bind, Except.ok.injEq] at ho
  subst ho
  have he : Attribs.overlay ClassObj.new.info.attribs c.attribs = c.attribs :=
    PyDict.ofPairs_of_nodup c.attribs (unpackClass_attribs_nodup lim d c hc)
  rw [he]
  exact ⟨rfl, by simp [SlotOK, ClassObj.new], by simp [SlotOK, ClassObj.new], cacheOK_empty _ _⟩

end

/-! ## C151 -/

/-- The constants of a pool below an index: index, tag and dereferenced value, in order. -/
def ListsConstants (pool : Pool) (lim bound : Nat) (items : List (Nat × Nat × PVal)) : Prop :=
  (items.map Prod.fst).Pairwise (· < ·) ∧
  ∀ i t v, (i, t, v) ∈ items ↔ 1 ≤ i ∧ i < bound ∧
    ∃ c, pool[i]? = some (some c) ∧ t = c.tag ∧ deref pool lim i = .ok v

theorem derefLoop_spec (pool : Pool) (lim n : Nat) (i : Nat) (hn : i + n ≤ pool.length) :
    ((derefLoop pool lim n i).1.map Prod.fst).Pairwise (· < ·) ∧
    (∀ k t v, (k, t, v) ∈ (derefLoop pool lim n i).1 → i ≤ k) ∧
    (match (derefLoop pool lim n i).2 with
     | none => ∀ k t v, (k, t, v) ∈ (derefLoop pool lim n i).1 ↔ i ≤ k ∧ k < i + n ∧
        ∃ c, pool[k]? = some (some c) ∧ t = c.tag ∧ deref pool lim k = .ok v
     | some e => ∃ k c, i ≤ k ∧ k < i + n ∧ pool[k]? = some (some c) ∧
        deref pool lim k = .error e ∧
        (∀ j c, i ≤ j → j < k → pool[j]? = some (some c) → ∃ v, deref pool lim j = .ok v) ∧
        ∀ j t v, (j, t, v) ∈ (derefLoop pool lim n i).1 ↔ i ≤ j ∧ j < k ∧
          ∃ c, pool[j]? = some (some c) ∧ t = c.tag ∧ deref pool lim j = .ok v) ∧
    ((derefLoop pool lim n i).2 = none → ∀ k c, i ≤ k → k < i + n →
      pool[k]? = some (some c) → ∃ v, deref pool lim k = .ok v) := by
  induction n generalizing i with
  | zero =>
    simp only [derefLoop, List.map_nil, List.Pairwise.nil, true_and, List.not_mem_nil, false_iff]
    refine ⟨by simp, fun k t v h => by omega, fun _ k c _ _ => by omega⟩
  | succ n ih =>
    obtain ⟨ih1, ih2, ih3, ih4⟩ := ih (i + 1) (by omega)
    have hi : i < pool.length := by omega
    rw [derefLoop]
    unfold getConst
    rw [List.getElem?_eq_getElem hi]
    simp only
    cases hc : pool[i] with
    | none =>
      have hp : pool[i]? = some none := by rw [List.getElem?_eq_getElem hi, hc]
      have key : ∀ j, (∃ c, pool[j]? = some (some c)) → i ≤ j → i + 1 ≤ j := by
        rintro j ⟨c, h⟩ hj
        rcases Nat.lt_or_ge i j with h' | h'
        · exact h'
        · have : j = i := by omega
          subst this; rw [hp] at h; simp at h
      simp only
      refine ⟨ih1, fun k t v h => by have := ih2 k t v h; omega, ?_, ?_⟩
      · cases hr : (derefLoop pool lim n (i + 1)).2 with
        | none =>
          rw [hr] at ih3
          simp only at ih3 ⊢
          intro k t v
          rw [ih3]
          constructor
          · rintro ⟨h1, h2, h3⟩; exact ⟨by omega, by omega, h3⟩
          · rintro ⟨h1, h2, c, h3, h4⟩
            exact ⟨key k ⟨c, h3⟩ h1, by omega, c, h3, h4⟩
        | some e =>
          rw [hr] at ih3
          simp only at ih3 ⊢
          obtain ⟨k, c, h1, h2, h3, h4, h6, h5⟩ := ih3
          refine ⟨k, c, by omega, by omega, h3, h4,
            fun j c h1 h2 h3 => h6 j c (key j ⟨c, h3⟩ h1) h2 h3, ?_⟩
          intro j t v
          rw [h5]
          constructor
          · rintro ⟨h1, h2, h3⟩; exact ⟨by omega, by omega, h3⟩
          · rintro ⟨h1, h2, c, h3, h4⟩
            exact ⟨key j ⟨c, h3⟩ h1, by omega, c, h3, h4⟩
      · intro hr k c h1 h2 h3
        exact ih4 hr k c (key k ⟨c, h3⟩ h1) (by omega) h3
    | some c =>
      have hp : pool[i]? = some (some c) := by rw [List.getElem?_eq_getElem hi, hc]
      simp only
      cases hd : deref pool lim i with
      | error e =>
        simp only [List.map_nil, List.Pairwise.nil, true_and, List.not_mem_nil, false_iff]
        refine ⟨by simp, ⟨i, c, Nat.le_refl i, by omega, hp, hd, ?_, ?_⟩, by simp⟩
        · intro j c h1 h2; omega
        · intro j t v h; omega
      | ok v =>
        simp only [List.map_cons, List.pairwise_cons]
        refine ⟨⟨?_, ih1⟩, ?_, ?_, ?_⟩
        · intro k hk
          obtain ⟨⟨k', t, w⟩, hm, rfl⟩ := List.mem_map.1 hk
          have := ih2 k' t w hm
          simp only; omega
        · intro k t w h
          rcases List.mem_cons.1 h with h | h
          · simp only [Prod.mk.injEq] at h; omega
          · have := ih2 k t w h; omega
        · cases hr : (derefLoop pool lim n (i + 1)).2 with
          | none =>
            rw [hr] at ih3
            simp only at ih3 ⊢
            intro k t w
            rw [List.mem_cons, ih3, Prod.mk.injEq, Prod.mk.injEq]
            constructor
            · rintro (⟨rfl, rfl, rfl⟩ | ⟨h1, h2, h3⟩)
              · exact ⟨Nat.le_refl _, by omega, c, hp, rfl, hd⟩
              · exact ⟨by omega, by omega, h3⟩
            · rintro ⟨h1, h2, c', h3, h4, h5⟩
              rcases Nat.lt_or_ge i k with h' | h'
              · exact Or.inr ⟨h', by omega, c', h3, h4, h5⟩
              · have : k = i := by omega
                subst this
                rw [hp] at h3; rw [hd] at h5
                simp only [Option.some.injEq, Except.ok.injEq] at h3 h5
                subst h3
                exact Or.inl ⟨rfl, h4, h5.symm⟩
          | some e =>
            rw [hr] at ih3
            simp only at ih3 ⊢
            obtain ⟨k, c1, h1, h2, h3, h4, h6, h7⟩ := ih3
            refine ⟨k, c1, by omega, by omega, h3, h4, ?_, ?_⟩
            · intro j c' g1 g2 g3
              rcases Nat.lt_or_ge i j with h' | h'
              · exact h6 j c' h' g2 g3
              · have : j = i := by omega
                subst this
                exact ⟨v, hd⟩
            intro j t w
            rw [List.mem_cons, h7, Prod.mk.injEq, Prod.mk.injEq]
            constructor
            · rintro (⟨rfl, rfl, rfl⟩ | ⟨h1, h2, h3⟩)
              · exact ⟨Nat.le_refl _, by omega, c, hp, rfl, hd⟩
              · exact ⟨by omega, by omega, h3⟩
            · rintro ⟨h1, h2, c', h3, h4, h5⟩
              rcases Nat.lt_or_ge i j with h' | h'
              · exact Or.inr ⟨h', by omega, c', h3, h4, h5⟩
              · have : j = i := by omega
                subst this
                rw [hp] at h3; rw [hd] at h5
                simp only [Option.some.injEq, Except.ok.injEq] at h3 h5
                subst h3
                exact Or.inl ⟨rfl, h4, h5.symm⟩
        · intro hr k c' h1 h2 h3
          rcases Nat.lt_or_ge i k with h' | h'
          · exact ih4 hr k c' h' (by omega) h3
          · have : k = i := by omega
            subst this
            exact ⟨v, hd⟩

/-- C151. `constants` lists, in the order of their indices, the entries of the pool with their
tags and dereferenced values; it stops with an exception at the first entry that cannot be
dereferenced, after having yielded every one before it, and at no other. -/
theorem C151_constants (pool : Pool) (lim : Nat) :
    (∀ items, poolConstants pool lim = (items, none) →
      ListsConstants pool lim pool.length items ∧
      ∀ (i : Nat) c, 1 ≤ i → pool[i]? = some (some c) → ∃ v, deref pool lim i = .ok v) ∧
    (∀ items e, poolConstants pool lim = (items, some e) → ∃ (k : Nat) (c : Const), 1 ≤ k ∧
      pool[k]? = some (some c) ∧ deref pool lim k = .error e ∧
      ListsConstants pool lim k items ∧
      ∀ (i : Nat) c, 1 ≤ i → i < k → pool[i]? = some (some c) → ∃ v, deref pool lim i = .ok v) := by
  rcases Nat.eq_zero_or_pos pool.length with hz | hz
  · have : pool = [] := List.length_eq_zero_iff.1 hz
    subst this
    simp [poolConstants, derefLoop, ListsConstants]
  obtain ⟨h1, _, h3, h4⟩ := derefLoop_spec pool lim (pool.length - 1) 1 (by omega)
  have hb : 1 + (pool.length - 1) = pool.length := by omega
  rw [hb] at h3 h4
  refine ⟨?_, ?_⟩
  · intro items he
    unfold poolConstants at he
    rw [he] at h1 h3 h4
    refine ⟨⟨h1, h3⟩, fun i c hi hc => h4 rfl i c hi ?_ hc⟩
    exact (List.getElem?_eq_some_iff.1 hc).1
  · intro items e he
    unfold poolConstants at he
    rw [he] at h1 h3 h4
    obtain ⟨k, c, g1, _, g3, g4, g6, g5⟩ := h3
    exact ⟨k, c, g1, g3, g4, ⟨h1, g5⟩, g6⟩

/-- The tag of a constant is the tag in the file. -/
theorem tag_constOf (e : CpInfo) : e.enc.head? = some (UInt8.ofNat (constOf e).tag) := by
  cases e <;> simp [CpInfo.enc, constOf, Const.tag, be]

/-- C151 on a pool whose references have the right kinds: no exception, and every value is the
one the entry stands for. -/
theorem C151_well_typed (pool : Pool) (h : WellTyped pool) (lim : Nat) :
    ∃ items, poolConstants pool (lim + 4) = (items, none) ∧
      ∀ i t v, (i, t, v) ∈ items ↔
        ∃ c, pool[i]? = some (some c) ∧ t = c.tag ∧ Denotes pool c v := by
  obtain ⟨h1, h2⟩ := C151_constants pool (lim + 4)
  cases hp : poolConstants pool (lim + 4) with
  | mk items r =>
    cases r with
    | some e =>
      obtain ⟨k, c, _, hc, he, _⟩ := h2 items e hp
      obtain ⟨v, _, hv⟩ := C09_deref_denotes pool h k c hc lim
      rw [hv] at he; simp at he
    | none =>
      refine ⟨items, rfl, ?_⟩
      obtain ⟨⟨_, h3⟩, _⟩ := h1 items hp
      intro i t v
      rw [h3]
      constructor
      · rintro ⟨_, _, c, hc, ht, hv⟩
        obtain ⟨w, hw, hd⟩ := C09_deref_denotes pool h i c hc lim
        rw [hv] at hd
        simp only [Except.ok.injEq] at hd
        exact ⟨c, hc, ht, hd ▸ hw⟩
      · rintro ⟨c, hc, ht, hv⟩
        refine ⟨?_, (List.getElem?_eq_some_iff.1 hc).1, c, hc, ht,
          C09_denotation_unique pool h i c v hc hv lim⟩
        rcases Nat.eq_zero_or_pos i with rfl | h0
        · have := h.1; rw [this] at hc; simp at hc
        · exact h0

/-- C151 on the bytes of a class file's pool: the tag of each entry is its first byte. -/
theorem C151_file (es : List CpInfo) (h : ∀ e ∈ es, e.Valid) (hc : cpCount es < 65536)
    (extra : Bytes) (lim : Nat) (items : List (Nat × Nat × PVal)) (pool : Pool)
    (hp : unpackPool.run (encPool es ++ extra) = .ok pool)
    (hi : poolConstants pool lim = (items, none)) (k : Nat) (e : CpInfo) (he : es[k]? = some e) :
    ∃ t v, (cpIndex es k, t, v) ∈ items ∧ e.enc.head? = some (UInt8.ofNat t) ∧
      deref pool lim (cpIndex es k) = .ok v := by
  obtain ⟨pool', h1, _, h0, h2⟩ := C07_pool_indices es h hc extra
  rw [hp] at h1
  simp only [Except.ok.injEq] at h1
  subst h1
  obtain ⟨h3, _⟩ := h2 k e he
  have hpos : 1 ≤ cpIndex es k := by
    rcases Nat.eq_zero_or_pos (cpIndex es k) with hz | hz
    · rw [hz, h0] at h3; simp at h3
    · exact hz
  obtain ⟨⟨_, h4⟩, h5⟩ := (C151_constants pool lim).1 items hi
  obtain ⟨v, hv⟩ := h5 _ _ hpos h3
  exact ⟨(constOf e).tag, v, (h4 _ _ _).2 ⟨hpos, (List.getElem?_eq_some_iff.1 h3).1, _, h3, rfl, hv⟩,
    tag_constOf e, hv⟩

example : poolConstants [none, some (.utf8 ['A']), some (.cls 1), some (.long 7), none,
    some (.string 9), some (.integer 1)] 9 =
    ([(1, 1, .str ['A']), (2, 7, .str ['A']), (3, 5, .int 7)], some .indexError) := by
  decide +kernel

/-! ## C152 -/

section
variable (glob : Str → Str → Bool) (lim depth : Nat)

/-- The full C152: an object that is unpacked from the bytes of a class answers for that class,
whatever it held and was asked before. -/
def C152_full : Prop :=
  ∀ (d1 d2 : Bytes) (o1 o2 : ClassObj) (c : ClassInfo) (calls : List ClassAsk),
    ClassObj.new.unpack lim d1 = .ok o1 →
    (unpackClassProg lim).run d2 = .ok c →
    (o1.asked glob lim depth calls).unpack lim d2 = .ok o2 →
    ∀ q, (o2.step glob lim depth q).1 = classAnswer glob lim depth c q

theorem get?_overlay (old new : Attribs) (h : new.keys.Nodup) (k : PVal) :
    PyDict.get? (Attribs.overlay old new) k = (PyDict.get? new k).or (PyDict.get? old k) := by
  have h1 := PyDict.get?_ofPairs new k
  rw [PyDict.ofPairs_of_nodup new h] at h1
  unfold Attribs.overlay
  rw [PyDict.get?_foldl, h1]
  cases ((new.filter (fun p => decide (p.1 = k))).getLast?).map Prod.snd <;> rfl

/-- C152, what happens: the parts that are assigned are those of the second class; an attribute
is that of the second class when it has one of that name and otherwise that of the first; an
answer that was kept stays. -/
theorem C152_exact (d : Bytes) (o o' : ClassObj) (c : ClassInfo)
    (hc : (unpackClassProg lim).run d = .ok c) (ho : o.unpack lim d = .ok o') :
    (∀ q ∈ [ClassAsk.version, .platform, .access, .this, .super, .interfaces, .fields, .methods],
      (o'.step glob lim depth q).1 = classAnswer glob lim depth c q) ∧
    (∀ i, (o'.step glob lim depth (.const i)).1 = classAnswer glob lim depth c (.const i)) ∧
    (∀ name, (o'.step glob lim depth (.attrib name)).1 =
      .buffer ((getAttribute c.attribs name).or (getAttribute o.info.attribs name))) ∧
    (∀ as, o.annos = some as → (o'.step glob lim depth .annos).1 = .annos (.ok as)) ∧
    (∀ as, o.invis = some as → (o'.step glob lim depth .invis).1 = .annos (.ok as)) ∧
    (∀ s ig, o.api.requires = some s → (o'.step glob lim depth (.requires ig)).1 =
      .symbols (.ok (s.filter fun p => !fnmatchesWith glob p ig))) ∧
    (∀ s ig, o.api.provides = some s → (o'.step glob lim depth (.provides ig false)).1 =
      .symbols (.ok (s.filter fun p => !fnmatchesWith glob p ig))) ∧
    (∀ s ig, o.api.providesPrivate = some s → (o'.step glob lim depth (.provides ig true)).1 =
      .symbols (.ok (s.filter fun p => !fnmatchesWith glob p ig))) := by
  have hn := unpackClass_attribs_nodup lim d c hc
  simp only [ClassObj.unpack, hc, bind, Except.bind, Except.ok.injEq] at ho
  subst ho
  refine ⟨?_, fun i => rfl, ?_, ?_, ?_, ?_, ?_, ?_⟩
  · intro q hq
    simp only [List.mem_cons, List.not_mem_nil, or_false] at hq
    rcases hq with rfl | rfl | rfl | rfl | rfl | rfl | rfl | rfl <;> rfl
  · intro name
    simp only [ClassObj.step, getAttribute, get?_overlay _ _ hn]
  · intro as h; simp only [ClassObj.step, h, cached]
  · intro as h; simp only [ClassObj.step, h, cached]
  · intro s ig h; simp only [ClassObj.step, getRequires, h]
  · intro s ig h; simp [ClassObj.step, getProvides, h]
  · intro s ig h; simp [ClassObj.step, getProvides, h]

theorem classAnswer_attribs (c : ClassInfo) (a : Attribs)
    (h : ∀ k, PyDict.get? a k = PyDict.get? c.attribs k) (q : ClassAsk) :
    classAnswer glob lim depth { c with attribs := a } q = classAnswer glob lim depth c q := by
  have hg : ∀ n, getAttribute a n = getAttribute c.attribs n := fun n => h _
  cases q with
  | attrib name => simp only [classAnswer, hg]
  | annos => simp only [classAnswer, getAnnotations, hg]
  | invis => simp only [classAnswer, getAnnotations, hg]
  | _ => rfl

/-- C152, the part that holds: an object that keeps no answer yet, and whose attributes all
have a namesake in the second class, answers for the second class. (A new object is one.) -/
theorem C152_partial (d : Bytes) (o o' : ClassObj) (c : ClassInfo)
    (hc : (unpackClassProg lim).run d = .ok c) (ho : o.unpack lim d = .ok o')
    (h1 : o.annos = none) (h2 : o.invis = none) (h3 : o.api = .empty)
    (h4 : ∀ k ∈ o.info.attribs.keys, k ∈ c.attribs.keys) (calls : List ClassAsk) (q : ClassAsk) :
    ((o'.asked glob lim depth calls).step glob lim depth q).1 = classAnswer glob lim depth c q := by
  have hn := unpackClass_attribs_nodup lim d c hc
  have ha : ∀ k, PyDict.get? (Attribs.overlay o.info.attribs c.attribs) k =
      PyDict.get? c.attribs k := by
    intro k
    rw [get?_overlay _ _ hn]
    cases hk : PyDict.get? c.attribs k with
    | some v => rfl
    | none =>
      have h5 : k ∉ o.info.attribs.keys := fun hm =>
        (PyDict.get?_eq_none_iff _ _).1 hk (h4 k hm)
      simp [(PyDict.get?_eq_none_iff _ _).2 h5]
  rw [← classAnswer_attribs glob lim depth c _ ha q]
  refine (ClassObj.step_ok glob lim depth _ _ (ClassObj.asked_ok glob lim depth _ calls o' ?_) q).1
  simp only [ClassObj.unpack, hc, bind, Except.bind, Except.ok.injEq] at ho
  subst ho
  exact ⟨rfl, by simp [SlotOK, h1], by simp [SlotOK, h2], by rw [h3]; exact cacheOK_empty _ _⟩

/-- The bytes of a class with the one attribute `A`, of one byte. -/
def attribClassBytes : Bytes :=
  [0xCA, 0xFE, 0xBA, 0xBE, 0, 0, 0, 52, 0, 2, 1, 0, 1, 0x41, 0, 0, 0, 0, 0, 0, 0, 0, 0, 0, 0, 0,
   0, 1, 0, 1, 0, 0, 0, 1, 7]

/-- The bytes of a class without attributes. -/
def bareClassBytes : Bytes :=
  [0xCA, 0xFE, 0xBA, 0xBE, 0, 0, 0, 50, 0, 1, 0, 0, 0, 0, 0, 0, 0, 0, 0, 0, 0, 0, 0, 0]

def attribClass : ClassInfo :=
  ⟨(52, 0), [none, some (.utf8 ['A'])], 0, 0, 0, [], [], [], [(.str ['A'], [7])]⟩

def bareClass : ClassInfo := ⟨(50, 0), [none], 0, 0, 0, [], [], [], []⟩

theorem C152_full_fails : ¬ C152_full glob 1000 depth := by
  intro h
  have h1 : (unpackClassProg 1000).run attribClassBytes = .ok attribClass := by decide +kernel
  have h2 : (unpackClassProg 1000).run bareClassBytes = .ok bareClass := by decide +kernel
  have := h attribClassBytes bareClassBytes _ _ bareClass []
    (by simp only [ClassObj.unpack, h1, bind, Except.bind]; rfl) h2
    (by simp only [ClassObj.unpack, h2, bind, Except.bind]; rfl) (.attrib "A")
  simp only [ClassObj.step, ClassObj.asked, List.foldl_nil, classAnswer,
    ClassAnswer.buffer.injEq] at this
  exact absurd this (by decide +kernel)

/-- The kept answer: asked for its annotations once, an object goes on giving that answer for
every class it is unpacked from later. -/
theorem C152_stale (d1 d2 : Bytes) (o1 o2 : ClassObj) (as : List AVal)
    (h1 : ClassObj.new.unpack lim d1 = .ok o1)
    (ha : (o1.step glob lim depth .annos).1 = .annos (.ok as))
    (h2 : (o1.asked glob lim depth [.annos]).unpack lim d2 = .ok o2) :
    (o2.step glob lim depth .annos).1 = .annos (.ok as) := by
  have hk : (o1.asked glob lim depth [.annos]).annos = some as := by
    simp only [ClassObj.asked, List.foldl_cons, List.foldl_nil]
    simp only [ClassObj.step, ClassAnswer.annos.injEq] at ha ⊢
    unfold cached at ha ⊢
    cases hs : o1.annos with
    | some v => rw [hs] at ha; simp only [Except.ok.injEq] at ha; rw [ha]
    | none =>
      rw [hs] at ha
      simp only at ha ⊢
      cases hf : getAnnotations o1.info.attribs o1.info.pool lim depth
          "RuntimeVisibleAnnotations" with
      | error e => rw [hf] at ha; simp at ha
      | ok v => rw [hf] at ha; simp only [Except.ok.injEq] at ha; rw [ha]
  cases hc : (unpackClassProg lim).run d2 with
  | error e => simp [ClassObj.unpack, hc, bind, Except.bind] at h2
  | ok c => exact (C152_exact glob lim depth d2 _ o2 c hc h2).2.2.2.1 as hk

end

/-! ## C80, the accessors left over -/

/-- C80, the printed signature of a class or member: the signature itself, which is the string
at the index the attribute starts with. -/
theorem C80_pretty_signature (a : Attribs) (pool : Pool) (lim : Nat) (v : PVal) :
    prettySignature a pool lim = .ok (some v) ↔ ∃ i rest, i < 65536 ∧
      getAttribute a "Signature" = some (be 2 i ++ rest) ∧ deref pool lim i = .ok v := by
  rw [← (C80_named a pool lim "Signature").1 v]
  unfold prettySignature
  cases derefAttr a pool lim "Signature" <;> simp [Except.map, prettyGeneric]

/-- C80, the module of a member. -/
theorem C80_module (m : Member) (pool : Pool) (lim : Nat) (v : PVal) :
    m.getModule pool lim = .ok (some v) ↔ ∃ i rest, i < 65536 ∧
      getAttribute m.attribs "Module" = some (be 2 i ++ rest) ∧ deref pool lim i = .ok v :=
  (C80_named m.attribs pool lim "Module").1 v

end Javatools
