import Verif.Proofs.ClassFile
import Verif.Proofs.Pool
import Verif.Spec.PoolTypes
import Verif.Props.Pack
/-
C06-C13, C19: reading class files, the constant pool, attributes.
-/
namespace Javatools
open Spec

/-! ## A class file used as the concrete case below -/

/-- A small class: a long constant in the middle of the pool, one field, one method with an
attribute, one class attribute. -/
def demoClass : ClassS where
  minor := 3
  major := 52
  pool := [.utf8 [67], .cls 1, .long (-5), .utf8 [86], .utf8 [68, 101, 112], .utf8 [73], .string 1]
  access := 0x21
  this := 2
  super := 0
  interfaces := [2, 2]
  fields := [⟨1, 1, 7, []⟩]
  methods := [⟨2, 5, 6, [⟨6, [1, 2]⟩]⟩]
  attrs := [⟨5, [9]⟩, ⟨6, []⟩]

theorem demoClass_valid : demoClass.Valid := by
  have h5 : utf8At demoClass.pool 5 [86] := ⟨3, rfl, rfl⟩
  have h6 : utf8At demoClass.pool 6 [68, 101, 112] := ⟨4, rfl, rfl⟩
  refine ⟨by decide, by decide, by decide, ?_, by decide, by decide, by decide, by decide,
    by decide, by decide, ?_, by decide, ?_, by decide, ?_⟩
  · intro e he
    simp only [demoClass, List.mem_cons, List.not_mem_nil, or_false] at he
    rcases he with rfl | rfl | rfl | rfl | rfl | rfl | rfl <;>
      simp [CpInfo.Valid, mutf8, mutf8Unit, SRange]
  · intro m hm
    simp only [demoClass, List.mem_cons, List.not_mem_nil, or_false] at hm
    subst hm
    simp [MemberS.Valid]
  · intro m hm
    simp only [demoClass, List.mem_cons, List.not_mem_nil, or_false] at hm
    subst hm
    refine ⟨by decide, by decide, by decide, by decide, ?_⟩
    intro a ha
    simp only [List.mem_cons, List.not_mem_nil, or_false] at ha
    subst ha
    exact ⟨by decide, by decide, _, h6⟩
  · intro a ha
    simp only [demoClass, List.mem_cons, List.not_mem_nil, or_false] at ha
    rcases ha with rfl | rfl
    · exact ⟨by decide, by decide, _, h5⟩
    · exact ⟨by decide, by decide, _, h6⟩

/-! ## C06 -/

/-- C06. The encoding of any class-file structure, followed by anything, unpacks to the object
that structure describes, from bytes and from a stream. -/
theorem C06_unpack_inverts_encoding (c : ClassS) (h : c.Valid) (extra : Bytes) (lim : Nat) :
    unpackClass (lim + 1) (.bytes (c.enc ++ extra)) = .ok (classOf c) ∧
    unpackClass (lim + 1) (.stream (c.enc ++ extra)) = .ok (classOf c) := by
  have h1 : unpackClass (lim + 1) (.bytes (c.enc ++ extra)) = .ok (classOf c) :=
    (Decodes.classProg c h lim).run extra
  exact ⟨h1, by unfold unpackClass at *; rw [← C01_bytes_stream_agree]; exact h1⟩

/-- C06, spelled out: every part of the unpacked object. Attribute tables are given by what
`get_attribute` returns (the last entry with the name, see C12). -/
theorem C06_parts (c : ClassS) (h : c.Valid) (extra : Bytes) (lim : Nat) :
    ∃ r, unpackClass (lim + 1) (.bytes (c.enc ++ extra)) = .ok r ∧
      r.version = (c.major, c.minor) ∧ r.access = c.access ∧ r.thisRef = c.this ∧
      r.superRef = c.super ∧ r.interfaces = c.interfaces ∧
      r.pool.length = cpCount c.pool ∧
      (∀ k e, c.pool[k]? = some e → r.pool[cpIndex c.pool k]? = some (some (constOf e))) ∧
      r.fields.map (fun m => (m.access, m.nameRef, m.descRef, m.isMethod)) =
        c.fields.map (fun m => (m.access, m.name, m.desc, false)) ∧
      r.methods.map (fun m => (m.access, m.nameRef, m.descRef, m.isMethod)) =
        c.methods.map (fun m => (m.access, m.name, m.desc, true)) ∧
      (∀ (k : Nat) (m : Member) (m' : MemberS), r.methods[k]? = some m → c.methods[k]? = some m' →
        ∀ name, getAttribute m.attribs name =
          ((m'.attrs.filter (fun a => decide (textAt c.pool a.name = name.toList))).getLast?).map
            AttrS.info) := by
  refine ⟨classOf c, (C06_unpack_inverts_encoding c h extra lim).1, rfl, rfl, rfl, rfl, rfl, ?_,
    fun k e he => (poolOf_index c.pool k e he).1, ?_, ?_, ?_⟩
  · simp [classOf, poolOf, cpSlots_length, cpCount]; omega
  · simp [classOf, memberOf, Function.comp_def]
  · simp [classOf, memberOf, Function.comp_def]
  · intro k m m' hm hm' name
    simp only [classOf, List.getElem?_map, hm', Option.map_some, Option.some.injEq] at hm
    subst hm
    simp only [memberOf, attribsOf, getAttribute, PyDict.get?_ofPairs, List.filter_map,
      List.getLast?_map, Option.map_map]
    simp [Function.comp_def]

/-- C06/C02. Any proper prefix of an encoded class file is refused with `UnpackException`. -/
theorem C06_truncated_class_refused (c : ClassS) (h : c.Valid) (lim m : Nat)
    (hm : m < c.enc.length) :
    ∃ fmt wanted present,
      unpackClass (lim + 1) (.bytes (c.enc.take m)) = .error (.unpack fmt wanted present) ∧
      unpackClass (lim + 1) (.stream (c.enc.take m)) = .error (.unpack fmt wanted present) ∧
      0 ≤ present ∧ present < wanted := by
  have h1 := Decodes.classProg c h lim [] []
  simp only [List.nil_append, List.append_nil, List.length_nil, Nat.zero_add] at h1
  exact C02_truncation_detected _ _ _ _ _ h1 hm

/-- C06. Two valid structures with the same encoding are read as the same object, and
structures read as different objects have different encodings. -/
theorem C06_encoding_determines_object (c c' : ClassS) (h : c.Valid) (h' : c'.Valid)
    (he : c.enc = c'.enc) : classOf c = classOf c' := by
  have h1 := (C06_unpack_inverts_encoding c h [] 0).1
  have h2 := (C06_unpack_inverts_encoding c' h' [] 0).1
  rw [he, h2] at h1
  exact (Except.ok.inj h1).symm

example : ∃ r, unpackClass 1000 (.bytes (demoClass.enc ++ [1, 2, 3])) = .ok r ∧
    r.version = (52, 3) ∧ r.pool.length = 9 ∧ r.pool[3]? = some (some (.long (-5))) ∧
    r.pool[4]? = some none ∧ r.interfaces = [2, 2] ∧
    getAttribute r.attribs "V" = some [9] := by
  refine ⟨_, (C06_unpack_inverts_encoding demoClass demoClass_valid [1, 2, 3] 999).1, ?_⟩
  decide

/-! ## C07 -/

/-- C07 for encoded pools: exactly `constant_pool_count` slots; slot 0 empty; every entry at
its JVM index; an empty slot after every long and double; nothing else. -/
theorem C07_pool_indices (es : List CpInfo) (h : ∀ e ∈ es, e.Valid) (hc : cpCount es < 65536)
    (extra : Bytes) :
    ∃ pool, unpackPool.run (encPool es ++ extra) = .ok pool ∧
      pool.length = cpCount es ∧ pool[0]? = some none ∧
      (∀ k e, es[k]? = some e → pool[cpIndex es k]? = some (some (constOf e)) ∧
        (e.width = 2 → pool[cpIndex es k + 1]? = some none)) := by
  refine ⟨poolOf es, (Decodes.unpackPool es h hc).run extra, ?_, rfl, poolOf_index es⟩
  simp [poolOf, cpSlots_length, cpCount]; omega

/-- C07 for arbitrary accepted data (not assumed to be the encoding of anything): the number of
slots is the count field (1 for a count of 0), and the empty slots are exactly slot 0 and the
slots directly after a long or double. -/
theorem C07_pool_slots_any_data (d : Bytes) (pool : Pool) (h : unpackPool.run d = .ok pool) :
    pool.length = max 1 (beNat (d.take 2)) ∧
    ∀ i, i < pool.length → (pool[i]? = some none ↔ i = 0 ∨
      ∃ j c, i = j + 1 ∧ pool[j]? = some (some c) ∧ c.isWide = true) := by
  obtain ⟨_, h2⟩ := u2_run_read _ d pool h
  have hp : ∃ r, pool = none :: r ∧ (r.length = beNat (d.take 2) - 1 ∧ SlotsOK false r) := by
    refine Prog.Post.run (P := fun (pool : Pool) => ∃ r, pool = none :: r ∧
      (r.length = beNat (d.take 2) - 1 ∧ SlotsOK false r)) ?_ _ pool h2
    exact (poolLoop_post _ false).bind fun r hr => ⟨r, rfl, hr⟩
  obtain ⟨r, rfl, h3, h4⟩ := hp
  refine ⟨by simp only [List.length_cons, h3]; omega, ?_⟩
  intro i hi
  cases i with
  | zero => simp
  | succ i =>
    have := h4.index i (by simpa using hi)
    simp only [List.getElem?_cons_succ, this]
    constructor
    · rintro (⟨_, h⟩ | ⟨j, c, rfl, h5, h6⟩)
      · simp at h
      · exact Or.inr ⟨j + 1, c, rfl, by simpa using h5, h6⟩
    · rintro (h | ⟨j, c, hj, h5, h6⟩)
      · omega
      · have : i = j := by omega
        subst this
        cases i with
        | zero => simp at h5
        | succ i => exact Or.inr ⟨i, c, rfl, by simpa using h5, h6⟩

/-- A long as the very last entry: count 4, three table slots, one of them empty. -/
example : unpackPool.run (encPool [.integer 7, .long (-1)]) =
    .ok [none, some (.integer 7), some (.long (-1)), none] := by decide

/-! ## C08 -/

theorem readMagic_runOn (src : Source) (d : Bytes) (h : src = .bytes d ∨ src = .stream d) :
    readMagic.runOn src = if 4 ≤ d.length then .ok (d.take 4) else
      .error (.unpack (some ">BBBB") 4 d.length) := by
  have hb : readMagic.runOn (.bytes d) = if 4 ≤ d.length then .ok (d.take 4) else
      .error (.unpack (some ">BBBB") 4 d.length) := by
    unfold Prog.runOn readMagic
    simp only [Prog.runBuf]
    by_cases hl : 4 ≤ d.length
    · rw [BufSt.read_ok _ (by omega), if_pos hl]; simp [Prog.runBuf]
    · rw [BufSt.read_short _ (by omega) (by omega), if_neg hl]; simp
  rcases h with rfl | rfl
  · exact hb
  · rw [← C01_bytes_stream_agree]; exact hb

/-- C08. `is_class` never raises and is true exactly for data that begins with CA FE BA BE; so
is `is_class_file` on a file with that content. -/
theorem C08_is_class_iff (d : Bytes) :
    isClass (.bytes d) = .ok (decide ([0xCA, 0xFE, 0xBA, 0xBE] <+: d)) ∧
    isClass (.stream d) = .ok (decide ([0xCA, 0xFE, 0xBA, 0xBE] <+: d)) ∧
    isClassFile d = decide ([0xCA, 0xFE, 0xBA, 0xBE] <+: d) := by
  have hpre : (([0xCA, 0xFE, 0xBA, 0xBE] : Bytes) <+: d) ↔ d.take 4 = javaMagic := by
    rw [List.prefix_iff_eq_take]
    simp only [List.length_cons, List.length_nil, javaMagic]
    exact eq_comm
  have hfile : isClassFile d = decide (([0xCA, 0xFE, 0xBA, 0xBE] : Bytes) <+: d) := by
    unfold isClassFile
    by_cases h : d.take 4 = javaMagic
    · rw [decide_eq_true (hpre.2 h), h]; rfl
    · rw [decide_eq_false (fun h' => h (hpre.1 h'))]
      simpa using h
  have key : ∀ src, (src = .bytes d ∨ src = .stream d) →
      isClass src = .ok (decide (([0xCA, 0xFE, 0xBA, 0xBE] : Bytes) <+: d)) := by
    intro src hs
    rw [← hfile]
    unfold isClass isClassFile
    rw [readMagic_runOn src d hs]
    by_cases hl : 4 ≤ d.length
    · rw [if_pos hl]
    · rw [if_neg hl]
      have : d.take 4 ≠ javaMagic := by
        intro h
        have := congrArg List.length h
        simp [javaMagic] at this
        omega
      simpa using this
  exact ⟨key _ (Or.inl rfl), key _ (Or.inr rfl), hfile⟩

/-- C08. `unpack_class` on data that does not begin with the magic: `UnpackException` when
there are fewer than four bytes, `ClassUnpackException` otherwise. -/
theorem C08_unpack_class_rejects (d : Bytes) (src : Source) (lim : Nat)
    (hs : src = .bytes d ∨ src = .stream d) (h : ¬ ([0xCA, 0xFE, 0xBA, 0xBE] : Bytes) <+: d) :
    unpackClass lim src = if d.length < 4 then .error (.unpack (some ">BBBB") 4 d.length)
      else .error .classUnpack := by
  have hb : unpackClass lim (.bytes d) = if d.length < 4 then
      .error (.unpack (some ">BBBB") 4 d.length) else .error .classUnpack := by
    have hpre : d.take 4 ≠ javaMagic := by
      intro h'
      refine h ?_
      rw [List.prefix_iff_eq_take]
      exact h'.symm
    unfold unpackClass unpackClassProg Prog.runOn readMagic
    simp only [Prog.bind_read, Prog.bind_ret, Prog.runBuf]
    by_cases hl : 4 ≤ d.length
    · rw [BufSt.read_ok _ (by omega), if_neg (by omega)]
      simp [hpre, Prog.runBuf]
    · rw [BufSt.read_short _ (by omega) (by omega), if_pos (by omega)]; simp
  rcases hs with rfl | rfl
  · exact hb
  · unfold unpackClass at *; rw [← C01_bytes_stream_agree]; exact hb

/-- C08. If `unpack_class` returns an object, `is_class` is true of the same data. -/
theorem C08_unpacked_is_class (d : Bytes) (lim : Nat) (r : ClassInfo)
    (h : unpackClass lim (.bytes d) = .ok r) : isClass (.bytes d) = .ok true := by
  rw [(C08_is_class_iff d).1]
  by_cases hp : ([0xCA, 0xFE, 0xBA, 0xBE] : Bytes) <+: d
  · rw [decide_eq_true hp]
  · rw [C08_unpack_class_rejects d _ lim (Or.inl rfl) hp] at h
    split at h <;> simp at h

example : isClass (.bytes [0xCA, 0xFE, 0xBA]) = .ok false ∧
    isClass (.stream [0xCA, 0xFE, 0xBA, 0xBE, 0]) = .ok true ∧
    unpackClass 9 (.stream [0xCA, 0xFE, 0xBA, 0xBF, 0]) = .error .classUnpack := by decide

/-! ## C09 -/

theorem ne_zero_of_entry {pool : Pool} (h0 : pool[0]? = some none) {i : Nat} {c : Const}
    (h : pool[i]? = some (some c)) : i ≠ 0 := by
  intro e; subst e; rw [h0] at h; simp at h

theorem deref_Utf8At {pool : Pool} (h0 : pool[0]? = some none) {i : Nat} {s : Str}
    (h : Utf8At pool i s) (lim : Nat) : deref pool (lim + 1) i = .ok (.str s) := by
  simp only [deref, ne_zero_of_entry h0 h, if_false, show pool[i]? = some (some (.utf8 s)) from h]

theorem deref_ClassAt {pool : Pool} (h0 : pool[0]? = some none) {i : Nat} {s : Str}
    (h : ClassAt pool i s) (lim : Nat) : deref pool (lim + 2) i = .ok (.str s) := by
  obtain ⟨n, h1, h2⟩ := h
  rw [deref]
  simp only [ne_zero_of_entry h0 h1, if_false, h1]
  exact deref_Utf8At h0 h2 lim

theorem deref_NameTypeAt {pool : Pool} (h0 : pool[0]? = some none) {i : Nat} {n t : Str}
    (h : NameTypeAt pool i n t) (lim : Nat) :
    deref pool (lim + 2) i = .ok (.pair (.str n) (.str t)) := by
  obtain ⟨a, b, h1, h2, h3⟩ := h
  rw [deref]
  simp only [ne_zero_of_entry h0 h1, if_false, h1, deref_Utf8At h0 h2 lim, deref_Utf8At h0 h3 lim]
  rfl

theorem deref_MemberRefAt {pool : Pool} (h0 : pool[0]? = some none) {i : Nat} {c n t : Str}
    (h : MemberRefAt pool i c n t) (lim : Nat) :
    deref pool (lim + 3) i = .ok (.pair (.str c) (.pair (.str n) (.str t))) := by
  obtain ⟨a, b, h1, h2, h3⟩ := h
  rcases h1 with h1 | h1 | h1 <;>
  · rw [deref]
    simp only [ne_zero_of_entry h0 h1, if_false, h1, deref_ClassAt h0 h2 lim,
      deref_NameTypeAt h0 h3 lim]
    rfl

/-- C09. In a well-typed pool of any size, dereferencing any entry needs at most four nested
calls and returns the value the entry denotes. -/
theorem C09_deref_denotes (pool : Pool) (h : WellTyped pool) (i : Nat) (c : Const)
    (hc : pool[i]? = some (some c)) (lim : Nat) :
    ∃ v, Denotes pool c v ∧ deref pool (lim + 4) i = .ok v := by
  obtain ⟨h0, hw⟩ := h
  obtain ⟨v, hv⟩ := hw i c hc
  refine ⟨v, hv, ?_⟩
  have hi := ne_zero_of_entry h0 hc
  rw [deref]
  simp only [hi, if_false, hc]
  cases c with
  | utf8 s => simp only [Denotes] at hv; subst hv; rfl
  | integer s => simp only [Denotes] at hv; subst hv; rfl
  | float s => simp only [Denotes] at hv; subst hv; rfl
  | long s => simp only [Denotes] at hv; subst hv; rfl
  | double s => simp only [Denotes] at hv; subst hv; rfl
  | cls n | string n | methodType n | module n | package n =>
    obtain ⟨s, h1, rfl⟩ := hv
    exact deref_Utf8At h0 h1 (lim + 2)
  | nameAndType a b | moduleId a b =>
    obtain ⟨n, t, h1, h2, rfl⟩ := hv
    simp only [deref_Utf8At h0 h1 (lim + 2), deref_Utf8At h0 h2 (lim + 2)]
    rfl
  | fieldref a b | methodref a b | ifaceMethodref a b =>
    obtain ⟨c, n, t, h1, h2, rfl⟩ := hv
    simp only [deref_ClassAt h0 h1 (lim + 1), deref_NameTypeAt h0 h2 (lim + 1)]
    rfl
  | dynamic a b | invokeDynamic a b =>
    obtain ⟨n, t, h2, rfl⟩ := hv
    simp only [deref_NameTypeAt h0 h2 (lim + 1)]
    rfl
  | methodHandle k j =>
    obtain ⟨c, n, t, h2, rfl⟩ := hv
    simp only [deref_MemberRefAt h0 h2 lim]
    rfl

/-- The denoted value is unique, so C09 determines the result. -/
theorem C09_denotation_unique (pool : Pool) (h : WellTyped pool) (i : Nat) (c : Const) (v : PVal)
    (hc : pool[i]? = some (some c)) (hv : Denotes pool c v) (lim : Nat) :
    deref pool (lim + 4) i = .ok v := by
  have hut : ∀ {j : Nat} {s s' : Str}, Utf8At pool j s → Utf8At pool j s' → s = s' := by
    intro j s s' h1 h2
    unfold Utf8At at h1 h2
    rw [h1] at h2
    simpa using h2
  have hcl : ∀ {j : Nat} {s s' : Str}, ClassAt pool j s → ClassAt pool j s' → s = s' := by
    rintro j s s' ⟨n, h1, h2⟩ ⟨n', h1', h2'⟩
    rw [h1] at h1'
    simp only [Option.some.injEq, Const.cls.injEq] at h1'
    subst h1'
    exact hut h2 h2'
  have hnt : ∀ {j : Nat} {n t n' t' : Str}, NameTypeAt pool j n t → NameTypeAt pool j n' t' →
      n = n' ∧ t = t' := by
    rintro j n t n' t' ⟨a, b, h1, h2, h3⟩ ⟨a', b', h1', h2', h3'⟩
    rw [h1] at h1'
    simp only [Option.some.injEq, Const.nameAndType.injEq] at h1'
    obtain ⟨rfl, rfl⟩ := h1'
    exact ⟨hut h2 h2', hut h3 h3'⟩
  have hmr : ∀ {j : Nat} {c n t c' n' t' : Str}, MemberRefAt pool j c n t →
      MemberRefAt pool j c' n' t' → c = c' ∧ n = n' ∧ t = t' := by
    rintro j c n t c' n' t' ⟨a, b, h1, h2, h3⟩ ⟨a', b', h1', h2', h3'⟩
    have hab : a = a' ∧ b = b' := by
      rcases h1 with h1 | h1 | h1 <;> rcases h1' with h1' | h1' | h1' <;>
        · rw [h1] at h1'; simp at h1' <;> exact h1'
    obtain ⟨rfl, rfl⟩ := hab
    have := hnt h3 h3'
    exact ⟨hcl h2 h2', this.1, this.2⟩
  obtain ⟨w, hw, hd⟩ := C09_deref_denotes pool h i c hc lim
  rw [hd]
  congr 1
  cases c with
  | utf8 s | integer s | float s | long s | double s =>
    simp only [Denotes] at hv hw; rw [hv, hw]
  | cls n | string n | methodType n | module n | package n =>
    obtain ⟨s, h1, rfl⟩ := hv; obtain ⟨s', h1', rfl⟩ := hw
    rw [hut h1 h1']
  | nameAndType a b | moduleId a b =>
    obtain ⟨n, t, h1, h2, rfl⟩ := hv; obtain ⟨n', t', h1', h2', rfl⟩ := hw
    rw [hut h1 h1', hut h2 h2']
  | fieldref a b | methodref a b | ifaceMethodref a b =>
    obtain ⟨c, n, t, h1, h2, rfl⟩ := hv; obtain ⟨c', n', t', h1', h2', rfl⟩ := hw
    obtain ⟨rfl, rfl⟩ := hnt h2 h2'
    rw [hcl h1 h1']
  | dynamic a b | invokeDynamic a b =>
    obtain ⟨n, t, h2, rfl⟩ := hv; obtain ⟨n', t', h2', rfl⟩ := hw
    obtain ⟨rfl, rfl⟩ := hnt h2 h2'; rfl
  | methodHandle k j =>
    obtain ⟨c, n, t, h2, rfl⟩ := hv; obtain ⟨c', n', t', h2', rfl⟩ := hw
    obtain ⟨rfl, rfl, rfl⟩ := hmr h2 h2'; rfl

/-- A pool with a method handle to a method reference. -/
def demoPool : Pool :=
  [none, some (.utf8 "C".toList), some (.cls 1), some (.utf8 "f".toList),
   some (.utf8 "()V".toList), some (.nameAndType 3 4), some (.methodref 2 5),
   some (.methodHandle 6 6), some (.double 0), none]

theorem demoPool_wellTyped : WellTyped demoPool := by
  refine ⟨rfl, ?_⟩
  have hc : ClassAt demoPool 2 "C".toList := ⟨1, rfl, rfl⟩
  have hn : NameTypeAt demoPool 5 "f".toList "()V".toList := ⟨3, 4, rfl, rfl, rfl⟩
  have hm : MemberRefAt demoPool 6 "C".toList "f".toList "()V".toList :=
    ⟨2, 5, Or.inr (Or.inl rfl), hc, hn⟩
  intro i c h
  match i, h with
  | 0, h | 9, h => simp [demoPool] at h
  | 1, h | 3, h | 4, h | 8, h =>
    simp only [demoPool] at h; cases h; exact ⟨_, rfl⟩
  | 2, h => simp only [demoPool] at h; cases h; exact ⟨_, _, rfl, rfl⟩
  | 5, h => simp only [demoPool] at h; cases h; exact ⟨_, _, _, rfl, rfl, rfl⟩
  | 6, h => simp only [demoPool] at h; cases h; exact ⟨_, _, _, _, hc, hn, rfl⟩
  | 7, h => simp only [demoPool] at h; cases h; exact ⟨_, _, _, _, hm, rfl⟩
  | n + 10, h => simp [demoPool] at h

example : deref demoPool 4 7 = .ok (.pair (.int 6) (.pair (.str "C".toList)
    (.pair (.str "f".toList) (.str "()V".toList)))) := by decide

/-! ## C10 -/

/-- C10. Index 0 and out-of-range indices raise IndexError; an empty slot raises
UnknownConstantPoolTagException. -/
theorem C10_bad_index (pool : Pool) (lim : Nat) :
    deref pool (lim + 1) 0 = .error .indexError ∧
    (∀ i, pool.length ≤ i → deref pool (lim + 1) i = .error .indexError) ∧
    (∀ i, i ≠ 0 → pool[i]? = some none → deref pool (lim + 1) i = .error .unknownTag) := by
  refine ⟨by simp [deref], ?_, ?_⟩
  · intro i hi
    rw [deref]
    split
    · rfl
    · rw [List.getElem?_eq_none hi]
  · intro i h0 hi
    simp [deref, h0, hi]

/-- C10. An entry from which a reference cycle can be reached never yields a value, whatever
the recursion limit; the exception is RecursionError unless a bad index or empty slot is met
first. -/
theorem C10_cycle_never_yields (pool : Pool) (i j : Nat) (hij : i = j ∨ Reaches pool i j)
    (hj : Reaches pool j j) (lim : Nat) :
    ∃ e, deref pool lim i = .error e ∧
      (e = .indexError ∨ e = .unknownTag ∨ e = .recursionError) := by
  have hno : ∀ v, deref pool lim i ≠ .ok v := by
    intro v hv
    rcases hij with rfl | hij
    · exact deref_cycle hj lim v hv
    · obtain ⟨l, w, _, h2⟩ := deref_ok_reaches hij hv
      exact deref_cycle hj l w h2
  cases h : deref pool lim i with
  | ok v => exact absurd h (hno v)
  | error e => exact ⟨e, rfl, deref_error h⟩

/-- C10. In a pool where everything reachable from `i` is a usable entry, a reachable cycle
means RecursionError. -/
theorem C10_cycle_recursion_error (pool : Pool) (i j : Nat) (hij : i = j ∨ Reaches pool i j)
    (hj : Reaches pool j j)
    (hok : ∀ k, (k = i ∨ Reaches pool i k) → k ≠ 0 ∧ ∃ c, pool[k]? = some (some c)) (lim : Nat) :
    deref pool lim i = .error .recursionError := by
  obtain ⟨e, he, hkind⟩ := C10_cycle_never_yields pool i j hij hj lim
  rw [he]
  congr 1
  exact deref_error_reachable hok he

/-- C10, converse: with a recursion limit above the pool size, RecursionError only happens when
a cycle is reachable. -/
theorem C10_recursion_error_means_cycle (pool : Pool) (i lim : Nat) (hl : pool.length < lim)
    (h : deref pool lim i = .error .recursionError) :
    ∃ j, (j = i ∨ Reaches pool i j) ∧ Reaches pool j j :=
  deref_recursion_cycle hl h

/-- A two-entry cycle, and an entry that leads to it. -/
example :
    let pool : Pool := [none, some (.cls 2), some (.string 1), some (.nameAndType 2 2)]
    Reaches pool 1 1 ∧ Reaches pool 3 1 ∧ deref pool 1000 3 = .error .recursionError := by
  have h12 : Refs [none, some (.cls 2), some (.string 1), some (.nameAndType 2 2)] 1 2 :=
    ⟨_, rfl, by simp [Const.follows]⟩
  have h21 : Refs [none, some (.cls 2), some (.string 1), some (.nameAndType 2 2)] 2 1 :=
    ⟨_, rfl, by simp [Const.follows]⟩
  have h32 : Refs [none, some (.cls 2), some (.string 1), some (.nameAndType 2 2)] 3 2 :=
    ⟨_, rfl, by simp [Const.follows]⟩
  refine ⟨.trans h12 (.step h21), .trans h32 (.step h21), ?_⟩
  refine C10_cycle_recursion_error _ 3 1 (Or.inr (.trans h32 (.step h21)))
    (.trans h12 (.step h21)) ?_ 1000
  intro k hk
  have : k = 1 ∨ k = 2 ∨ k = 3 := by
    rcases hk with rfl | hk
    · omega
    · have : ∀ a b, Reaches [none, some (.cls 2), some (.string 1), some (.nameAndType 2 2)] a b →
          b = 1 ∨ b = 2 ∨ b = 3 := by
        intro a b h
        induction h with
        | @step a b h =>
          obtain ⟨c, h1, h2⟩ := h
          match a, h1 with
          | 0, h1 => simp at h1
          | 1, h1 => simp at h1; subst h1; simp [Const.follows] at h2; omega
          | 2, h1 => simp at h1; subst h1; simp [Const.follows] at h2; omega
          | 3, h1 => simp at h1; subst h1; simp [Const.follows] at h2; omega
          | n + 4, h1 => simp at h1
        | trans _ _ ih => exact ih
      exact this _ _ hk
  rcases this with rfl | rfl | rfl <;> exact ⟨by decide, _, rfl⟩

/-! ## C11 -/

/-- The full C11: every string of code units, decoded to the same string. `utf16` is the text
the units stand for (RFC 2781). -/
def utf16Text : List Nat → Option Str
  | [] => some []
  | u :: us =>
    if u < 0xD800 ∨ 0xDFFF < u then (utf16Text us).map (Char.ofNat u :: ·)
    else match us with
      | [] => none
      | v :: us' =>
        if u < 0xDC00 ∧ 0xDC00 ≤ v ∧ v ≤ 0xDFFF then
          (utf16Text us').map (Char.ofNat (0x10000 + (u - 0xD800) * 1024 + (v - 0xDC00)) :: ·)
        else none

def C11_full : Prop :=
  ∀ us : List Nat, (∀ u ∈ us, u < 65536) → ∀ s, utf16Text us = some s →
    decodeUtf8Const (mutf8 us) = s

/-- C11 is false as stated: a supplementary character (here U+1F600, units D83D DE00) is lost. -/
theorem C11_full_fails : ¬ C11_full := by
  intro h
  have := h [0xD83D, 0xDE00] (by decide) [Char.ofNat 0x1F600] (by decide)
  exact absurd this (by decide)

/-- C11, exact behaviour for every string of code units: the units that are not surrogates. -/
theorem C11_decodes_non_surrogates (us : List Nat) (h : ∀ u ∈ us, u < 65536) :
    decodeUtf8Const (mutf8 us) =
      (us.filter (fun u => decide (u < 0xD800 ∨ 0xDFFF < u))).map Char.ofNat := by
  rw [decodeUtf8Const_mutf8 us h, javaText]
  congr 1
  refine List.filter_congr ?_
  intro u _
  by_cases hs : u < 0xD800 ∨ 0xDFFF < u
  · rw [decide_eq_true hs]
    have : ¬ isSurrogate u := by unfold isSurrogate; omega
    simp [this]
  · rw [decide_eq_false hs]
    have : isSurrogate u := by unfold isSurrogate; omega
    simp [this]

theorem utf16Text_bmp (us : List Nat) (h : ∀ u ∈ us, u < 0xD800 ∨ 0xDFFF < u) :
    utf16Text us = some (us.map Char.ofNat) := by
  induction us with
  | nil => rfl
  | cons u us ih =>
    have h1 := h u (by simp)
    rw [utf16Text.eq_def]
    simp only [if_pos h1]
    rw [ ih (fun v hv => h v (by simp [hv]))]
    rfl

/-- C11 for strings without supplementary characters (missing: those, which are dropped). NUL is
included, in its two-byte form. -/
theorem C11_utf8_bmp_partial (us : List Nat) (h : ∀ u ∈ us, u < 65536)
    (hb : ∀ u ∈ us, u < 0xD800 ∨ 0xDFFF < u) :
    utf16Text us = some (decodeUtf8Const (mutf8 us)) := by
  rw [utf16Text_bmp us hb, C11_decodes_non_surrogates us h, List.filter_eq_self.2]
  intro u hu
  simpa using hb u hu

/-- The decoding is lossless on such strings. -/
theorem C11_bmp_injective_partial (us vs : List Nat)
    (hu : ∀ u ∈ us, u < 65536 ∧ (u < 0xD800 ∨ 0xDFFF < u))
    (hv : ∀ u ∈ vs, u < 65536 ∧ (u < 0xD800 ∨ 0xDFFF < u))
    (h : decodeUtf8Const (mutf8 us) = decodeUtf8Const (mutf8 vs)) : us = vs := by
  have e1 := C11_utf8_bmp_partial us (fun u h => (hu u h).1) (fun u h => (hu u h).2)
  have e2 := C11_utf8_bmp_partial vs (fun u h => (hv u h).1) (fun u h => (hv u h).2)
  rw [utf16Text_bmp us (fun u h => (hu u h).2)] at e1
  rw [utf16Text_bmp vs (fun u h => (hv u h).2)] at e2
  have e : us.map Char.ofNat = vs.map Char.ofNat := by
    rw [Option.some.injEq] at e1 e2; rw [e1, e2, h]
  have e' := congrArg (List.map Char.toNat) e
  have rt : ∀ ws : List Nat, (∀ u ∈ ws, u < 65536 ∧ (u < 0xD800 ∨ 0xDFFF < u)) →
      (ws.map Char.ofNat).map Char.toNat = ws := by
    intro ws hw
    rw [List.map_map]
    conv => rhs; rw [← List.map_id ws]
    refine List.map_congr_left ?_
    intro u hu
    have := hw u hu
    have hval : u.isValidChar := by
      unfold Nat.isValidChar; omega
    simp [Char.ofNat, hval, Char.toNat, Char.ofNatAux]
  rw [rt us hu, rt vs hv] at e'
  exact e'

/-- A string with NUL, an ASCII, a Cyrillic and a CJK character. -/
example : decodeUtf8Const (mutf8 [0, 65, 0x416, 0x4E2D]) =
    [Char.ofNat 0, 'A', 'Ж', '中'] := by decide

/-! ## C12 -/

/-- C12. What `get_attribute(name)` returns for an encoded attribute table: the bytes of the
last entry with that name; `None` exactly when there is no such entry. -/
theorem C12_get_attribute (es : List CpInfo) (as : List AttrS) (hl : as.length < 65536)
    (h : ∀ a ∈ as, a.Valid es) (lim : Nat) (extra : Bytes) :
    ∃ r, (unpackAttribs (poolOf es) (lim + 1)).run (encAttrs as ++ extra) = .ok r ∧
      ∀ name, getAttribute r name =
          ((as.filter (fun a => decide (textAt es a.name = name.toList))).getLast?).map AttrS.info ∧
        (getAttribute r name = none ↔ ∀ a ∈ as, textAt es a.name ≠ name.toList) := by
  refine ⟨attribsOf es as, (Decodes.attribs hl h lim).run extra, ?_⟩
  intro name
  have h1 : getAttribute (attribsOf es as) name =
      ((as.filter (fun a => decide (textAt es a.name = name.toList))).getLast?).map AttrS.info := by
    simp only [attribsOf, getAttribute, PyDict.get?_ofPairs, List.filter_map,
      List.getLast?_map, Option.map_map]
    simp [Function.comp_def]
  refine ⟨h1, ?_⟩
  rw [h1]
  simp [List.getLast?_eq_none_iff, List.filter_eq_nil_iff]

/-- The full C12: every attribute of the table is retrievable by its name. -/
def C12_full : Prop :=
  ∀ (es : List CpInfo) (as : List AttrS) (lim : Nat), as.length < 65536 →
    (∀ e ∈ es, e.Valid) → (∀ a ∈ as, a.Valid es) →
    ∃ r, (unpackAttribs (poolOf es) (lim + 1)).run (encAttrs as) = .ok r ∧
      ∀ a ∈ as, ∀ name : String, name.toList = textAt es a.name →
        getAttribute r name = some a.info

/-- It is false: JVMS 4.7.12 allows several LineNumberTable attributes on one Code attribute
and only the last of them is kept. -/
theorem C12_full_fails : ¬ C12_full := by
  intro h
  let es : List CpInfo := [.utf8 ("LineNumberTable".toList.map Char.toNat)]
  have hu : utf8At es 1 ("LineNumberTable".toList.map Char.toNat) := ⟨0, rfl, rfl⟩
  obtain ⟨r, hr, ha⟩ := h es [⟨1, [0, 0]⟩, ⟨1, [0, 1, 0, 0, 0, 7]⟩] 0 (by decide)
    (by intro e he; simp only [es, List.mem_singleton] at he; subst he
        exact ⟨by decide, by decide⟩)
    (by intro a ha
        simp only [List.mem_cons, List.not_mem_nil, or_false] at ha
        rcases ha with rfl | rfl <;> exact ⟨by decide, by decide, _, hu⟩)
  have h1 : ((unpackAttribs (poolOf es) 1).run
      (encAttrs [⟨1, [0, 0]⟩, ⟨1, [0, 1, 0, 0, 0, 7]⟩])) =
      .ok [(.str "LineNumberTable".toList, [0, 1, 0, 0, 0, 7])] := by decide
  rw [h1] at hr
  have hr := Except.ok.inj hr
  subst hr
  have := ha ⟨1, [0, 0]⟩ (by simp) "LineNumberTable" (by decide)
  exact absurd this (by decide)

/-- C12 for tables whose names are distinct (missing: repeated names): every attribute is
retrievable. -/
theorem C12_all_retrievable_partial (es : List CpInfo) (as : List AttrS) (hl : as.length < 65536)
    (h : ∀ a ∈ as, a.Valid es) (hd : (as.map fun a => textAt es a.name).Nodup) (lim : Nat) :
    ∃ r, (unpackAttribs (poolOf es) (lim + 1)).run (encAttrs as) = .ok r ∧
      ∀ a ∈ as, ∀ name : String, name.toList = textAt es a.name →
        getAttribute r name = some a.info := by
  refine ⟨attribsOf es as, by simpa using (Decodes.attribs hl h lim).run [], ?_⟩
  intro a ha name hname
  unfold getAttribute attribsOf
  have hnd : ((as.map fun a => (PVal.str (textAt es a.name), a.info)).map Prod.fst).Nodup := by
    rw [List.map_map]
    have : (Prod.fst ∘ fun a : AttrS => (PVal.str (textAt es a.name), a.info)) =
        PVal.str ∘ (fun a : AttrS => textAt es a.name) := rfl
    rw [this, ← List.map_map]
    unfold List.Nodup at hd ⊢
    rw [List.pairwise_map]
    refine hd.imp ?_
    intro x y hxy e
    exact hxy (PVal.str.inj e)
  rw [PyDict.ofPairs_of_nodup _ hnd]
  refine PyDict.get?_of_mem_nodup hnd ?_
  rw [hname]
  exact List.mem_map_of_mem ha

example : ∃ r, (unpackAttribs (poolOf demoClass.pool) 1).run (encAttrs demoClass.attrs) = .ok r ∧
    getAttribute r "V" = some [9] ∧ getAttribute r "Dep" = some [] ∧
    getAttribute r "C" = none := by
  exact ⟨_, rfl, by decide⟩

/-! ## C13 -/

/-- The full C13 for Deprecated: a member that carries a (zero-length) Deprecated attribute
reports it, one without does not. -/
def C13_full : Prop :=
  ∀ a : Attribs, (∀ b, getAttribute a "Deprecated" = some b → b = []) →
    isDeprecated a = (getAttribute a "Deprecated").isSome

/-- It is false: the attribute's mandated length is zero and the empty byte string is falsy. -/
theorem C13_full_fails : ¬ C13_full := by
  intro h
  have := h [(.str "Deprecated".toList, [])] (by decide)
  exact absurd this (by decide)

/-- C13, exact behaviour: a conforming (zero-length) Deprecated attribute is never reported. -/
theorem C13_conforming_never_reported (a : Attribs)
    (h : ∀ b, getAttribute a "Deprecated" = some b → b = []) : isDeprecated a = false := by
  unfold isDeprecated truthyAttr
  cases hg : getAttribute a "Deprecated" with
  | none => rfl
  | some b => rw [h b hg]

/-- C13, the half that holds (missing: reporting a present attribute): without the attribute
`is_deprecated` is false; it is true only when the attribute is present; and `is_synthetic` is
true whenever the access flag says so, and false when neither flag nor attribute is there. -/
theorem C13_absent_not_reported_partial (m : Member) :
    (getAttribute m.attribs "Deprecated" = none → isDeprecated m.attribs = false) ∧
    (isDeprecated m.attribs = true → (getAttribute m.attribs "Deprecated").isSome) ∧
    (m.access.testBit 12 = true → m.isSynthetic = true) ∧
    (m.access.testBit 12 = false → getAttribute m.attribs "Synthetic" = none →
      m.isSynthetic = false) := by
  have hbit : ∀ n : Nat, (n &&& 0x1000) ≠ 0 ↔ n.testBit 12 = true := by
    intro n
    rw [and_pow_ne_zero n 12]
  refine ⟨fun h => by simp [isDeprecated, truthyAttr, h], ?_, ?_, ?_⟩
  · intro h
    unfold isDeprecated truthyAttr at h
    cases hg : getAttribute m.attribs "Deprecated" with
    | none => rw [hg] at h; simp at h
    | some b => rfl
  · intro h
    unfold Member.isSynthetic
    rw [decide_eq_true ((hbit _).2 h)]; rfl
  · intro h hs
    unfold Member.isSynthetic
    rw [decide_eq_false (by rw [hbit]; simp [h])]
    simp [truthyAttr, hs]

example : isDeprecated [(.str "Deprecated".toList, [0])] = true ∧
    (Member.mk 0x1001 1 2 [] true).isSynthetic = true ∧
    (Member.mk 0x0001 1 2 [] true).isSynthetic = false := by decide

/-! ## C19 -/

/-- JVMS 4.7.22/4.7.16.1: an AnnotationDefault attribute whose element_value is a constant: a
tag byte and a two-byte pool index. -/
def encConstElement (tag idx : Nat) : Bytes := be 1 tag ++ be 2 idx

def C19_full : Prop :=
  ∀ (m : Member) (tag idx : Nat), tag < 256 → idx < 65536 →
    getAttribute m.attribs "AnnotationDefault" = some (encConstElement tag idx) →
    m.getAnnotationdefault = .ok (some idx)

/-- C19 is false: the tag byte is taken for the high byte of the index. -/
theorem C19_full_fails : ¬ C19_full := by
  intro h
  have := h ⟨0, 1, 2, [(.str "AnnotationDefault".toList, encConstElement 73 5)], true⟩ 73 5
    (by decide) (by decide) (by decide)
  exact absurd this (by decide)

/-- C19, exact behaviour: the number returned is made of the tag and the high byte of the
index. -/
theorem C19_exact (m : Member) (tag idx : Nat) (ht : tag < 256) (hi : idx < 65536)
    (h : getAttribute m.attribs "AnnotationDefault" = some (encConstElement tag idx)) :
    m.getAnnotationdefault = .ok (some (tag * 256 + idx / 256)) := by
  unfold Member.getAnnotationdefault
  rw [h]
  have e : encConstElement tag idx =
      be 2 (tag * 256 + idx / 256) ++ [UInt8.ofNat (idx % 256)] := by
    simp only [encConstElement, be, List.nil_append, List.append_assoc, List.cons_append,
      Nat.reducePow]
    have e1 : (tag * 256 + idx / 256) / 256 = tag := by omega
    have e2 : UInt8.ofNat (tag * 256 + idx / 256) = UInt8.ofNat (idx / 256) := by
      apply UInt8.toNat_inj.1
      simp [UInt8.toNat_ofNat']
    simp [e1, e2]
  have := (Decodes.u2 (n := tag * 256 + idx / 256) (by omega)).run [UInt8.ofNat (idx % 256)]
  rw [← e] at this
  simp only [this]; rfl

/-- C19 holds only for indices that happen to spell their own tag (missing: all others), and
`None` is returned exactly when there is no attribute. -/
theorem C19_annotationdefault_partial (m : Member) :
    (m.getAnnotationdefault = .ok none ↔ getAttribute m.attribs "AnnotationDefault" = none) ∧
    (∀ tag idx, tag < 256 → idx < 65536 →
      getAttribute m.attribs "AnnotationDefault" = some (encConstElement tag idx) →
      (m.getAnnotationdefault = .ok (some idx) ↔ idx = tag * 257)) := by
  constructor
  · unfold Member.getAnnotationdefault
    cases getAttribute m.attribs "AnnotationDefault" with
    | none => simp
    | some b => simp only [reduceCtorEq, iff_false]; cases u2.run b <;> simp [Except.map]
  · intro tag idx ht hi h
    rw [C19_exact m tag idx ht hi h]
    simp only [Except.ok.injEq, Option.some.injEq]
    omega

end Javatools
