import Verif.Model.Attrs
import Verif.Props.ClassExact
import Verif.Props.Descriptor
/-
C80-C84: attribute readers, the magic argument, exceptions of the class reader,
`pretty_deref_const`, exception handlers.
-/
namespace Javatools
open Spec

/-! ## C80 -/

/-- A routine that decodes exactly the encodings of the structures satisfying `V`. -/
theorem run_iff {α β : Type} {p : Prog α} {enc : β → Bytes} {f : β → α} {V : β → Prop}
    (hd : ∀ x, V x → Decodes p (enc x) (f x))
    (hs : Sound p (fun bs a => ∃ x, V x ∧ bs = enc x ∧ a = f x)) (d : Bytes) (a : α) :
    p.run d = .ok a ↔ ∃ x rest, V x ∧ d = enc x ++ rest ∧ a = f x := by
  constructor
  · intro h
    obtain ⟨bs, rest, rfl, x, hx, rfl, rfl⟩ := hs.run h
    exact ⟨x, rest, hx, rfl, rfl⟩
  · rintro ⟨x, rest, hx, rfl, rfl⟩
    exact (hd x hx).run rest

/-- The same for tables. -/
theorem counted_run_iff {α β : Type} {p : Prog α} {enc : β → Bytes} {f : β → α} {V : β → Prop}
    (hd : ∀ x, V x → Decodes p (enc x) (f x))
    (hs : Sound p (fun bs a => ∃ x, V x ∧ bs = enc x ∧ a = f x)) (d : Bytes) (as : List α) :
    (counted p).run d = .ok as ↔ ∃ (xs : List β) (rest : Bytes), (xs.length < 65536 ∧
      ∀ x ∈ xs, V x) ∧ d = (be 2 xs.length ++ xs.flatMap enc) ++ rest ∧ as = xs.map f :=
  run_iff (enc := fun xs : List β => be 2 xs.length ++ xs.flatMap enc) (f := fun xs => xs.map f)
    (V := fun xs => xs.length < 65536 ∧ ∀ x ∈ xs, V x)
    (fun xs h => Decodes.counted enc f xs h.1 (fun x hx => hd x (h.2 x hx)))
    ((Sound.counted hs).mono (by
      rintro bs as ⟨xs, h1, h2, h3, h4⟩
      exact ⟨xs, ⟨h1, h2⟩, h3, h4⟩)) d as

/-- `u2` fields of an entry of a table. -/
def Fields4 (a b c d : Nat) : Prop := a < 65536 ∧ b < 65536 ∧ c < 65536 ∧ d < 65536

/-- `exception_table` entry (JVMS 4.7.3) -/
def encExc (e : ExcInfo) : Bytes :=
  be 2 e.startPc ++ (be 2 e.endPc ++ (be 2 e.handlerPc ++ be 2 e.catchRef))

theorem Decodes.exc (e : ExcInfo) (h : Fields4 e.startPc e.endPc e.handlerPc e.catchRef) :
    Decodes unpackExc (encExc e) e :=
  Decodes.bind_ret (f := fun q : Nat × Nat × Nat × Nat => (⟨q.1, q.2.1, q.2.2.1, q.2.2.2⟩ : ExcInfo))
    (Decodes.u2x4 h.1 h.2.1 h.2.2.1 h.2.2.2)

theorem sound_exc : Sound unpackExc (fun bs a => ∃ e : ExcInfo,
    Fields4 e.startPc e.endPc e.handlerPc e.catchRef ∧ bs = encExc e ∧ a = id e) := by
  refine (Sound.bind_ret
    (fun q : Nat × Nat × Nat × Nat => (⟨q.1, q.2.1, q.2.2.1, q.2.2.2⟩ : ExcInfo)) Sound.u2x4).mono ?_
  rintro bs a ⟨q, ⟨h, rfl⟩, rfl⟩
  exact ⟨⟨q.1, q.2.1, q.2.2.1, q.2.2.2⟩, h, rfl, rfl⟩

/-- `Code_attribute` (JVMS 4.7.3) -/
structure CodeS where
  maxStack : Nat
  maxLocals : Nat
  code : Bytes
  handlers : List ExcInfo
  attrs : List AttrS

def CodeS.enc (c : CodeS) : Bytes :=
  (be 2 c.maxStack ++ (be 2 c.maxLocals ++ be 4 c.code.length)) ++ (c.code ++
  ((be 2 c.handlers.length ++ c.handlers.flatMap encExc) ++ encAttrs c.attrs))

def CodeS.Fits (pool : Pool) (lim : Nat) (c : CodeS) : Prop :=
  (c.maxStack < 65536 ∧ c.maxLocals < 65536 ∧ c.code.length < 2 ^ 32) ∧
  (c.handlers.length < 65536 ∧ ∀ e ∈ c.handlers, Fields4 e.startPc e.endPc e.handlerPc e.catchRef) ∧
  (c.attrs.length < 65536 ∧ ∀ a ∈ c.attrs, a.Fits pool lim)

def CodeS.object (pool : Pool) (lim : Nat) (c : CodeS) : CodeInfo :=
  ⟨c.maxStack, c.maxLocals, c.code, c.handlers, attribsAt pool lim c.attrs⟩

theorem Decodes.rawCode {pool : Pool} {lim : Nat} (c : CodeS) (h : c.Fits pool lim) :
    Decodes (unpackCode pool lim) c.enc (c.object pool lim) := by
  obtain ⟨⟨h1, h2, h3⟩, ⟨h4, h5⟩, h6, h7⟩ := h
  unfold unpackCode CodeS.enc
  refine Decodes.bind (Decodes.u2u2u4 h1 h2 h3) ?_
  refine Decodes.bind (Decodes.readBytes c.code) ?_
  have he : Decodes (Javatools.counted unpackExc) (be 2 c.handlers.length ++ c.handlers.flatMap encExc)
      c.handlers := by
    have := Decodes.counted encExc id c.handlers h4 (fun e he => Decodes.exc e (h5 e he))
    rwa [List.map_id] at this
  refine Decodes.bind he ?_
  exact Decodes.bind_ret (f := fun a => (⟨c.maxStack, c.maxLocals, c.code, c.handlers, a⟩ : CodeInfo))
    (Decodes.rawAttribs h6 h7)

theorem sound_rawCode (pool : Pool) (lim : Nat) :
    Sound (unpackCode pool lim) (fun bs a => ∃ c : CodeS, c.Fits pool lim ∧ bs = c.enc ∧
      a = c.object pool lim) := by
  unfold unpackCode
  refine (Sound.bind Sound.u2u2u4 (fun h => Sound.bind (Sound.readBytes h.2.2) (fun code =>
    Sound.bind (Sound.counted sound_exc) (fun excs => Sound.bind_ret
    (fun a => (⟨h.1, h.2.1, code, excs, a⟩ : CodeInfo)) (sound_rawAttribs pool lim))))).mono ?_
  rintro bs a ⟨b1, b2, ⟨ms, ml, n⟩, rfl, ⟨⟨h1, h2, h3⟩, rfl⟩, b3, b4, code, rfl, ⟨hl, rfl⟩,
    b5, b6, excs, rfl, ⟨hs, h4, h5, rfl, rfl⟩, at', ⟨as, ⟨h6, h7⟩, rfl, rfl⟩, rfl⟩
  simp only at hl h1 h2 h3
  subst hl
  refine ⟨⟨ms, ml, code, hs, as⟩, ⟨⟨h1, h2, h3⟩, ⟨h4, h5⟩, h6, h7⟩, rfl, ?_⟩
  simp [CodeS.object]

/-- C80, code. `get_code` returns a code block exactly when the Code attribute starts with the
encoding of one, and returns that one; it returns None exactly when there is no Code
attribute. -/
theorem C80_code (m : Member) (pool : Pool) (lim : Nat) :
    (∀ c, m.getCode pool lim = .ok (some c) ↔ ∃ (cs : CodeS) (rest : Bytes),
      getAttribute m.attribs "Code" = some (cs.enc ++ rest) ∧ cs.Fits pool lim ∧
      c = cs.object pool lim) ∧
    (m.getCode pool lim = .ok none ↔ getAttribute m.attribs "Code" = none) := by
  unfold Member.getCode
  cases ha : getAttribute m.attribs "Code" with
  | none => simp
  | some buf =>
    have h := run_iff (fun x hx => Decodes.rawCode (pool := pool) (lim := lim) x hx)
      (sound_rawCode pool lim) buf
    constructor
    · intro c
      constructor
      · intro hr
        cases hx : (unpackCode pool lim).run buf with
        | error e => simp [hx, Except.map] at hr
        | ok v =>
          simp only [hx, Except.map, Except.ok.injEq, Option.some.injEq] at hr
          subst hr
          obtain ⟨cs, rest, h1, h2, h3⟩ := (h v).1 hx
          exact ⟨cs, rest, by rw [h2], h1, h3⟩
      · rintro ⟨cs, rest, h1, h2, rfl⟩
        have := (h (cs.object pool lim)).2 ⟨cs, rest, h2, Option.some.inj h1, rfl⟩
        simp only [this, Except.map]
    · cases hx : (unpackCode pool lim).run buf <;> simp [hx, Except.map]

/-- A table attribute: absent and read as empty, or starting with a count and that many
entries. -/
def TableIs {β α : Type} (attr : Option Bytes) (enc : β → Bytes) (V : β → Prop) (f : β → α)
    (out : List α) : Prop :=
  (attr = none ∧ out = []) ∨
  ∃ (xs : List β) (rest : Bytes), attr = some ((be 2 xs.length ++ xs.flatMap enc) ++ rest) ∧
    xs.length < 65536 ∧ (∀ x ∈ xs, V x) ∧ out = xs.map f

theorem table_iff {α β : Type} {p : Prog α} {enc : β → Bytes} {f : β → α} {V : β → Prop}
    (hd : ∀ x, V x → Decodes p (enc x) (f x))
    (hs : Sound p (fun bs a => ∃ x, V x ∧ bs = enc x ∧ a = f x)) (attr : Option Bytes)
    (out : List α) :
    (match attr with
      | none => (.ok [] : Res (List α))
      | some buf => (counted p).run buf) = .ok out ↔ TableIs attr enc V f out := by
  unfold TableIs
  cases attr with
  | none => simp [eq_comm]
  | some buf =>
    rw [counted_run_iff hd hs]
    constructor
    · rintro ⟨xs, rest, ⟨h1, h2⟩, rfl, h3⟩
      exact .inr ⟨xs, rest, rfl, h1, h2, h3⟩
    · rintro (⟨h, _⟩ | ⟨xs, rest, h0, h1, h2, h3⟩)
      · cases h
      · exact ⟨xs, rest, ⟨h1, h2⟩, Option.some.inj h0, h3⟩

/-- `(start_pc, line_number)`, JVMS 4.7.12 -/
def encLine (p : Nat × Nat) : Bytes := be 2 p.1 ++ be 2 p.2

/-- C80, line numbers. -/
theorem C80_line_numbers (c : CodeInfo) (out : List (Nat × Nat)) :
    c.getLinenumbertable = .ok out ↔
      TableIs (getAttribute c.attribs "LineNumberTable") encLine
        (fun p => p.1 < 65536 ∧ p.2 < 65536) id out := by
  unfold CodeInfo.getLinenumbertable
  exact table_iff (fun x hx => Decodes.u2u2 hx.1 hx.2)
    (Sound.u2u2.mono (fun bs a h => ⟨a, h.1, h.2, rfl⟩)) _ out

theorem Decodes.u2x5 {a b c d e : Nat} (ha : a < 65536) (hb : b < 65536) (hc : c < 65536)
    (hd : d < 65536) (he : e < 65536) :
    Decodes u2x5 (be 2 a ++ (be 2 b ++ (be 2 c ++ (be 2 d ++ be 2 e)))) (a, b, c, d, e) :=
  Decodes.read_ret (by simp [be_length]) (by
    have h4 : (be 2 a ++ (be 2 b ++ (be 2 c ++ (be 2 d ++ be 2 e)))).drop 4
        = be 2 c ++ (be 2 d ++ be 2 e) := by
      rw [show 4 = 2 + 2 from rfl, ← List.drop_drop, drop_be, drop_be]
    have h6 : (be 2 a ++ (be 2 b ++ (be 2 c ++ (be 2 d ++ be 2 e)))).drop 6 = be 2 d ++ be 2 e := by
      rw [show 6 = 4 + 2 from rfl, ← List.drop_drop, h4, drop_be]
    have h8 : (be 2 a ++ (be 2 b ++ (be 2 c ++ (be 2 d ++ be 2 e)))).drop 8 = be 2 e := by
      rw [show 8 = 6 + 2 from rfl, ← List.drop_drop, h6, drop_be]
    rw [take_be, h8, h6, h4, take_be, drop_be, take_be, take_be, beNat_be_of_lt (by simpa using ha),
      beNat_be_of_lt (by simpa using hb), beNat_be_of_lt (by simpa using hc),
      beNat_be_of_lt (by simpa using hd), beNat_be_of_lt (by simpa using he)])

/-- `(start_pc, length, name_index, descriptor_index, index)`, JVMS 4.7.13 -/
def encVar (p : Nat × Nat × Nat × Nat × Nat) : Bytes :=
  be 2 p.1 ++ (be 2 p.2.1 ++ (be 2 p.2.2.1 ++ (be 2 p.2.2.2.1 ++ be 2 p.2.2.2.2)))

def VarFits (p : Nat × Nat × Nat × Nat × Nat) : Prop :=
  p.1 < 65536 ∧ p.2.1 < 65536 ∧ p.2.2.1 < 65536 ∧ p.2.2.2.1 < 65536 ∧ p.2.2.2.2 < 65536

theorem sound_u2x5 : Sound u2x5 (fun bs p => VarFits p ∧ bs = encVar p) := by
  refine (Sound.read_ret _).mono ?_
  rintro bs a ⟨hl, rfl⟩
  obtain ⟨h1, h2⟩ := split_be 2 bs (by omega)
  obtain ⟨h3, h4⟩ := split_be 2 (bs.drop 2) (by simp; omega)
  obtain ⟨h5, h6⟩ := split_be 2 (bs.drop 4) (by simp; omega)
  obtain ⟨h7, h8⟩ := split_be 2 (bs.drop 6) (by simp; omega)
  obtain ⟨h9, h10⟩ := be_beNat_of (w := 2) (bs := bs.drop 8) (by simp; omega)
  rw [List.drop_drop] at h4 h6 h8
  refine ⟨⟨by simpa using h1, by simpa using h3, by simpa using h5, by simpa using h7,
    by simpa using h9⟩, ?_⟩
  unfold encVar
  simp only
  rw [h10, ← h8, ← h6, ← h4, ← h2]

/-- C80, local variables (both tables, by attribute name). -/
theorem C80_local_variables (c : CodeInfo) (attr : String)
    (out : List (Nat × Nat × Nat × Nat × Nat)) :
    c.getVariableTable attr = .ok out ↔
      TableIs (getAttribute c.attribs attr) encVar VarFits id out := by
  unfold CodeInfo.getVariableTable
  exact table_iff (fun x hx => Decodes.u2x5 hx.1 hx.2.1 hx.2.2.1 hx.2.2.2.1 hx.2.2.2.2)
    (sound_u2x5.mono (fun bs a h => ⟨a, h.1, h.2, rfl⟩)) _ out

/-- `inner_class_info_index, outer_class_info_index, inner_name_index, access flags`,
JVMS 4.7.6 -/
def encInner (i : InnerClassInfo) : Bytes :=
  be 2 i.innerRef ++ (be 2 i.outerRef ++ (be 2 i.nameRef ++ be 2 i.access))

/-- C80, inner classes. -/
theorem C80_inner_classes (c : ClassInfo) (out : List InnerClassInfo) :
    c.getInnerclasses = .ok out ↔
      TableIs (getAttribute c.attribs "InnerClasses") encInner
        (fun i => Fields4 i.innerRef i.outerRef i.nameRef i.access) id out := by
  unfold ClassInfo.getInnerclasses
  refine table_iff (fun x hx => ?_) ?_ _ out
  · exact Decodes.bind_ret (f := fun q : Nat × Nat × Nat × Nat =>
      (⟨q.1, q.2.1, q.2.2.1, q.2.2.2⟩ : InnerClassInfo)) (Decodes.u2x4 hx.1 hx.2.1 hx.2.2.1 hx.2.2.2)
  · refine (Sound.bind_ret (fun q : Nat × Nat × Nat × Nat =>
      (⟨q.1, q.2.1, q.2.2.1, q.2.2.2⟩ : InnerClassInfo)) Sound.u2x4).mono ?_
    rintro bs a ⟨q, ⟨h, rfl⟩, rfl⟩
    exact ⟨⟨q.1, q.2.1, q.2.2.1, q.2.2.2⟩, h, rfl, rfl⟩

/-- C80, exceptions a method declares: the names its indices stand for, in order. -/
theorem C80_exceptions (m : Member) (pool : Pool) (lim : Nat) (out : List PVal) :
    m.getExceptions pool lim = .ok out ↔
      TableIs (getAttribute m.attribs "Exceptions") (be 2)
        (fun i => i < 65536 ∧ ∃ v, deref pool lim i = .ok v) (keyAt pool lim) out := by
  unfold Member.getExceptions
  refine table_iff (fun x hx => ?_) ?_ _ out
  · obtain ⟨h1, v, h2⟩ := hx
    have := Decodes.bind (f := fun i => Prog.lift (deref pool lim i)) (Decodes.u2 h1)
      (Decodes.lift h2)
    rw [keyAt_of h2]
    simpa using this
  · refine (Sound.bind Sound.u2 (fun i => Sound.lift (deref pool lim i))).mono ?_
    rintro bs a ⟨b1, b2, i, rfl, ⟨hi, rfl⟩, rfl, hd⟩
    exact ⟨i, ⟨hi, a, hd⟩, by simp, (keyAt_of hd).symm⟩

theorem u2_run_iff (d : Bytes) (n : Nat) :
    u2.run d = .ok n ↔ ∃ rest, n < 65536 ∧ d = be 2 n ++ rest := by
  rw [run_iff (p := u2) (enc := be 2) (f := id) (V := fun n => n < 65536) (fun x hx => Decodes.u2 hx)
    (Sound.u2.mono (fun bs a h => ⟨a, h.1, h.2, rfl⟩))]
  constructor
  · rintro ⟨x, rest, h1, h2, rfl⟩; exact ⟨rest, h1, h2⟩
  · rintro ⟨rest, h1, h2⟩; exact ⟨n, rest, h1, h2, rfl⟩

/-- C80, constant values: the index the attribute starts with. -/
theorem C80_constant_value (m : Member) :
    (∀ i, m.getConstantvalue = .ok (some i) ↔ ∃ rest, i < 65536 ∧
      getAttribute m.attribs "ConstantValue" = some (be 2 i ++ rest)) ∧
    (m.getConstantvalue = .ok none ↔ getAttribute m.attribs "ConstantValue" = none) := by
  unfold Member.getConstantvalue
  cases ha : getAttribute m.attribs "ConstantValue" with
  | none => simp
  | some buf =>
    constructor
    · intro i
      have h := u2_run_iff buf i
      cases hx : u2.run buf with
      | error e =>
        rw [hx] at h
        simp only [hx, Except.map, reduceCtorEq, false_iff] at h ⊢
        rintro ⟨rest, h1, h2⟩
        exact h ⟨rest, h1, Option.some.inj h2⟩
      | ok v =>
        rw [hx] at h
        simp only [hx, Except.map, Except.ok.injEq, Option.some.injEq] at h ⊢
        exact h
    · cases hx : u2.run buf <;> simp [hx, Except.map]

/-- C80, signatures and source files: what the index the attribute starts with stands for. -/
theorem C80_named (a : Attribs) (pool : Pool) (lim : Nat) (attr : String) :
    (∀ v, derefAttr a pool lim attr = .ok (some v) ↔ ∃ i rest, i < 65536 ∧
      getAttribute a attr = some (be 2 i ++ rest) ∧ deref pool lim i = .ok v) ∧
    (derefAttr a pool lim attr = .ok none ↔ getAttribute a attr = none) := by
  unfold derefAttr
  cases ha : getAttribute a attr with
  | none => simp
  | some buf =>
    cases hx : u2.run buf with
    | error e =>
      simp only [hx, bind, Except.bind, reduceCtorEq, false_iff]
      refine ⟨fun v => ?_, by simp⟩
      rintro ⟨i, rest, h1, h2, _⟩
      have := (u2_run_iff buf i).2 ⟨rest, h1, Option.some.inj h2⟩
      rw [hx] at this; cases this
    | ok i =>
      simp only [bind, Except.bind]
      obtain ⟨rest, h1, h2⟩ := (u2_run_iff buf i).1 hx
      cases hd : deref pool lim i with
      | error e =>
        simp only [hx, hd, reduceCtorEq, false_iff]
        refine ⟨fun v => ?_, by simp⟩
        rintro ⟨j, rest', h3, h4, h5⟩
        have := (u2_run_iff buf j).2 ⟨rest', h3, Option.some.inj h4⟩
        rw [hx] at this
        cases this
        rw [hd] at h5; cases h5
      | ok w =>
        simp only [hx, hd, Except.ok.injEq, Option.some.injEq, reduceCtorEq]
        refine ⟨fun v => ?_, by simp⟩
        constructor
        · rintro rfl
          exact ⟨i, rest, h1, h2, hd⟩
        · rintro ⟨j, rest', h3, h4, h5⟩
          have := (u2_run_iff buf j).2 ⟨rest', h3, h4⟩
          rw [hx] at this
          cases this
          rw [hd] at h5
          exact Except.ok.inj h5

/-- C80, enclosing methods: `Class.nameType` when the attribute names a class and a method, the
class when it names only a class, None without the attribute. -/
theorem C80_enclosing_method (fmt : PVal → Str) (hfmt : ∀ s, fmt (.str s) = s) (c : ClassInfo)
    (lim ci mi : Nat) (rest : Bytes) (cls name type : Str) (h0 : c.pool[0]? = some none)
    (hci : ci < 65536) (hmi : mi < 65536) (hc : ClassAt c.pool ci cls)
    (ha : getAttribute c.attribs "EnclosingMethod" = some ((be 2 ci ++ be 2 mi) ++ rest)) :
    (NameTypeAt c.pool mi name type →
      c.getEnclosingmethod fmt (lim + 2) = .ok (some (.str (cls ++ ".".toList ++ name ++ type)))) ∧
    (mi = 0 → c.getEnclosingmethod fmt (lim + 2) = .ok (some (.str cls))) := by
  have utf8 : ∀ l i s, Utf8At c.pool i s → deref c.pool (l + 1) i = .ok (.str s) := by
    intro l i s h
    have hi : i ≠ 0 := by rintro rfl; unfold Utf8At at h; rw [h0] at h; cases h
    unfold Utf8At at h
    simp only [deref, if_neg hi, h]
  obtain ⟨n, hn1, hn2⟩ := hc
  have hci0 : ci ≠ 0 := by rintro rfl; rw [h0] at hn1; cases hn1
  have hcls : deref c.pool (lim + 2) ci = .ok (.str cls) := by
    simp only [deref, if_neg hci0, hn1]
    exact utf8 lim n cls hn2
  have hrun : u2u2.run ((be 2 ci ++ be 2 mi) ++ rest) = .ok (ci, mi) := (Decodes.u2u2 hci hmi).run rest
  unfold ClassInfo.getEnclosingmethod
  rw [ha]
  simp only [hrun, bind, Except.bind]
  constructor
  · rintro ⟨a, b, h1, h2, h3⟩
    have hmi0 : mi ≠ 0 := by rintro rfl; rw [h0] at h1; cases h1
    have hnt : deref c.pool (lim + 2) mi = .ok (.pair (.str name) (.str type)) := by
      have e : deref c.pool (lim + 2) mi = (do
          let x ← deref c.pool (lim + 1) a
          let y ← deref c.pool (lim + 1) b
          .ok (.pair x y)) := by
        rw [deref, if_neg hmi0, h1]
      rw [e, utf8 lim a name h2, utf8 lim b type h3]
      rfl
    rw [if_pos ⟨hci0, hmi0⟩]
    simp only [hcls, hnt, PVal.unpackTwo, hfmt]
  · rintro rfl
    rw [if_neg (by simp), if_pos hci0]
    simp only [hcls]

example :
    let pool : Pool := [none, some (.cls 2), some (.utf8 "A".toList), some (.nameAndType 4 5),
      some (.utf8 "f".toList), some (.utf8 "()V".toList)]
    let c : ClassInfo := ⟨(50, 0), pool, 0, 1, 0, [], [], [],
      [(.str "EnclosingMethod".toList, [0, 1, 0, 3])]⟩
    c.getEnclosingmethod (fun v => match v with | .str s => s | _ => []) 5 =
      .ok (some (.str "A.f()V".toList)) := by decide +kernel

example :
    let pool : Pool := [none, some (.utf8 "LineNumberTable".toList), some (.utf8 "x".toList)]
    (Member.mk 0 0 0 [(.str "Code".toList,
      [0, 1, 0, 2, 0, 0, 0, 1, 0xb1, 0, 1, 0, 0, 0, 1, 0, 2, 0, 0, 0, 1, 0, 1, 0, 0, 0, 6,
       0, 1, 0, 0, 0, 7])] true).getCode pool 5 =
      .ok (some ⟨1, 2, [0xb1], [⟨0, 1, 2, 0⟩],
        [(.str "LineNumberTable".toList, [0, 1, 0, 0, 0, 7])]⟩) ∧
    (CodeInfo.mk 1 2 [0xb1] [] [(.str "LineNumberTable".toList, [0, 1, 0, 0, 0, 7])]).getLinenumbertable
      = .ok [(0, 7)] := by decide +kernel

/-! ## C81 -/

/-- Reading from an offset is reading the rest. -/
theorem runBuf_shift {α : Type} (p : Prog α) (pre d : Bytes) :
    (p.runBuf ⟨some (pre ++ d), pre.length⟩).1 = p.run d := by
  unfold Prog.run
  rw [runBuf_eq_runStr p _ _ (by simp), runBuf_eq_runStr p d 0 (Nat.zero_le _)]
  simp

theorem class_after_magic (lim : Nat) (rest : Bytes) :
    (unpackClassProg lim).run (javaMagic ++ rest) = (unpackClassBody lim).run rest := by
  have h := runBuf_shift (unpackClassBody lim) javaMagic rest
  rw [← h]
  unfold Prog.run unpackClassProg
  rw [runBuf_bind]
  have hm : readMagic.runBuf ⟨some (javaMagic ++ rest), 0⟩ =
      (.ok javaMagic, ⟨some (javaMagic ++ rest), 4⟩) := by
    have : Decodes readMagic javaMagic javaMagic := Decodes.read_ret rfl rfl
    have := this [] rest
    simpa [javaMagic] using this
  rw [hm]
  simp only [ne_eq, not_true_eq_false, if_false]
  rfl

/-- C81 as stated: the magic bytes may be passed as a tuple, `bytes` or `str`. -/
def C81_full : Prop := ∀ (lim : Nat) (m : MagicArg) (rest : Bytes),
  m.asTuple = [0xCA, 0xFE, 0xBA, 0xBE] →
  (unpackClassArg lim m).run rest = unpackClass lim (.bytes ([0xCA, 0xFE, 0xBA, 0xBE] ++ rest))

/-- A complete class file without its magic. -/
def tailOfClass : Bytes := [0, 0, 0, 50, 0, 1, 0, 0, 0, 0, 0, 0, 0, 0, 0, 0, 0, 0, 0, 0]

/-- C81 is false: with the magic given as bytes every class is refused. -/
theorem C81_full_fails : ¬ C81_full := by
  intro h
  have := h 5 (.bytes javaMagic) tailOfClass (by decide)
  have h1 : ∃ r, unpackClass 5 (.bytes ([0xCA, 0xFE, 0xBA, 0xBE] ++ tailOfClass)) = .ok r :=
    ⟨⟨(50, 0), [none], 0, 0, 0, [], [], [], []⟩, by decide +kernel⟩
  obtain ⟨r, hr⟩ := h1
  rw [hr] at this
  simp [unpackClassArg, MagicArg.truthy, MagicArg.isMagicTuple, javaMagic, Prog.run, Prog.runBuf] at this

/-- C81, exactly: magic given as `bytes` or `str` is never accepted, whatever the data. -/
theorem C81_bytes_and_str_refused (lim : Nat) (m : MagicArg) (d : Bytes)
    (h : (∃ bs, bs ≠ [] ∧ m = .bytes bs) ∨ (∃ s, s ≠ [] ∧ m = .str s)) :
    (unpackClassArg lim m).run d = .error .classUnpack := by
  rcases h with ⟨bs, hb, rfl⟩ | ⟨s, hs, rfl⟩
  · simp [unpackClassArg, MagicArg.truthy, hb, MagicArg.isMagicTuple, Prog.run, Prog.runBuf]
  · simp [unpackClassArg, MagicArg.truthy, hs, MagicArg.isMagicTuple, Prog.run, Prog.runBuf]

/-- C81, the part that holds: with the magic as a tuple, unpacking the rest gives exactly what
unpacking everything gives, errors included; any other tuple is refused, and an empty or absent
one is read from the data. Missing: `bytes` and `str`. -/
theorem C81_tuple_partial (lim : Nat) (rest : Bytes) :
    (unpackClassArg lim (.tuple [0xCA, 0xFE, 0xBA, 0xBE])).run rest =
      unpackClass lim (.bytes ([0xCA, 0xFE, 0xBA, 0xBE] ++ rest)) ∧
    (∀ t, t ≠ [] → t ≠ [0xCA, 0xFE, 0xBA, 0xBE] →
      (unpackClassArg lim (.tuple t)).run rest = .error .classUnpack) ∧
    (unpackClassArg lim .absent).run rest = unpackClass lim (.bytes rest) ∧
    (unpackClassArg lim (.tuple [])).run rest = unpackClass lim (.bytes rest) := by
  refine ⟨?_, ?_, rfl, rfl⟩
  · have h1 : unpackClassArg lim (.tuple [0xCA, 0xFE, 0xBA, 0xBE]) = unpackClassBody lim := rfl
    rw [h1]
    exact (class_after_magic lim rest).symm
  · intro t h1 h2
    have e : MagicArg.isMagicTuple (.tuple t) = false := by
      simp only [MagicArg.isMagicTuple, decide_eq_false_iff_not]
      exact h2
    simp [unpackClassArg, MagicArg.truthy, h1, e, Prog.run, Prog.runBuf]

/-- C81 for the method `JavaClassInfo.unpack`, where all three forms work. -/
theorem C81_method_accepts_all_forms (lim : Nat) (m : MagicArg) (rest : Bytes)
    (h : m.asTuple = [0xCA, 0xFE, 0xBA, 0xBE]) :
    (classUnpackArg lim m).run rest =
      unpackClass lim (.bytes ([0xCA, 0xFE, 0xBA, 0xBE] ++ rest)) := by
  have ht : m.truthy = true := by
    cases m with
    | absent => simp [MagicArg.asTuple] at h
    | tuple ns => simp only [MagicArg.asTuple] at h; subst h; rfl
    | bytes bs =>
      cases bs with
      | nil => simp [MagicArg.asTuple] at h
      | cons x xs => simp [MagicArg.truthy]
    | str s =>
      cases s with
      | nil => simp [MagicArg.asTuple] at h
      | cons x xs => simp [MagicArg.truthy]
  have e : classUnpackArg lim m = unpackClassBody lim := by
    unfold classUnpackArg
    rw [if_pos ht, if_pos (by rw [h]; rfl)]
  rw [e]
  exact (class_after_magic lim rest).symm

/-! ## C82 -/

/-- All exceptions `p` raises on byte data satisfy `E`. -/
def Raises {α : Type} (p : Prog α) (E : PyErr → Prop) : Prop :=
  ∀ (d : Bytes) (off : Nat) (e : PyErr) (s' : BufSt), off ≤ d.length →
    p.runBuf ⟨some d, off⟩ = (.error e, s') → E e

theorem Raises.ret {α : Type} (a : α) (E : PyErr → Prop) : Raises (.ret a) E := by
  intro d off e s' _ h; simp [Prog.runBuf] at h

theorem Raises.fail {α : Type} {e : PyErr} {E : PyErr → Prop} (h : E e) :
    Raises (.fail e : Prog α) E := by
  intro d off e' s' _ hr
  simp only [Prog.runBuf, Prod.mk.injEq, Except.error.injEq] at hr
  rw [← hr.1]; exact h

theorem Raises.lift {α : Type} {r : Res α} {E : PyErr → Prop} (h : ∀ e, r = .error e → E e) :
    Raises (Prog.lift r) E := by
  cases r with
  | ok a => exact Raises.ret a E
  | error e => exact Raises.fail (h e rfl)

theorem Raises.bind {α β : Type} {p : Prog α} {f : α → Prog β} {E : PyErr → Prop}
    (h1 : Raises p E) (h2 : ∀ a, Raises (f a) E) : Raises (p.bind f) E := by
  intro d off e s' ho hr
  rw [runBuf_bind] at hr
  obtain ⟨off', hs, _, ho'⟩ := runBuf_state p d off ho
  cases hp : p.runBuf ⟨some d, off⟩ with
  | mk r s =>
    rw [hp] at hr hs
    simp only at hs
    subst hs
    cases r with
    | error x =>
      simp only [Prod.mk.injEq, Except.error.injEq] at hr
      rw [← hr.1]
      exact h1 d off x _ ho hp
    | ok a => exact h2 a d off' e s' ho' hr

theorem Raises.read {α : Type} {fmt : Option String} {n : Nat} {k : Bytes → Prog α}
    {E : PyErr → Prop} (hu : ∀ f w q, E (.unpack f w q)) (h : ∀ bs, Raises (k bs) E) :
    Raises (.read fmt n k) E := by
  intro d off e s' ho hr
  by_cases hn : off + n ≤ d.length
  · simp only [Prog.runBuf, BufSt.read_ok fmt hn] at hr
    exact h _ d _ e s' hn hr
  · simp only [Prog.runBuf] at hr
    rw [BufSt.read_short fmt ho (by omega)] at hr
    simp only [Prod.mk.injEq, Except.error.injEq] at hr
    rw [← hr.1]; exact hu _ _ _

theorem Raises.times {α : Type} {p : Prog α} {E : PyErr → Prop} (h : Raises p E) (n : Nat) :
    Raises (Prog.times n p) E := by
  induction n with
  | zero => exact Raises.ret _ E
  | succ n ih => exact Raises.bind h (fun a => Raises.bind ih (fun as => Raises.ret _ E))

/-- The exceptions the class reader raises. -/
def ReaderError (e : PyErr) : Prop :=
  (∃ f w q, e = .unpack f w q) ∨ e = .classUnpack ∨ e = .unknownTag ∨ e = .indexError ∨
  e = .recursionError

theorem ReaderError.u (f : Option String) (w q : Int) : ReaderError (.unpack f w q) :=
  .inl ⟨f, w, q, rfl⟩

theorem raises_read {α : Type} {fmt : Option String} {n : Nat} (f : Bytes → α) :
    Raises (.read fmt n fun bs => .ret (f bs)) ReaderError :=
  Raises.read ReaderError.u (fun _ => Raises.ret _ _)

theorem raises_counted {α : Type} {p : Prog α} (h : Raises p ReaderError) :
    Raises (counted p) ReaderError := Raises.bind (raises_read _) (fun n => Raises.times h n)

theorem deref_errors {pool : Pool} {lim i : Nat} {e : PyErr} (h : deref pool lim i = .error e) :
    ReaderError e := by
  induction lim generalizing i e with
  | zero =>
    simp only [deref, Except.error.injEq] at h
    subst h
    exact .inr (.inr (.inr (.inr rfl)))
  | succ lim ih =>
    have one : ∀ n, deref pool lim n = .error e → ReaderError e := fun n h => ih h
    have two : ∀ a b, (do
        let x ← deref pool lim a
        let y ← deref pool lim b
        .ok (.pair x y) : Res PVal) = .error e → ReaderError e := by
      intro a b h
      cases ha : deref pool lim a with
      | error x =>
        rw [ha] at h
        simp only [bind, Except.bind, Except.error.injEq] at h
        subst h; exact ih ha
      | ok x =>
        cases hb : deref pool lim b with
        | error y =>
          rw [ha, hb] at h
          simp only [bind, Except.bind, Except.error.injEq] at h
          subst h; exact ih hb
        | ok y => rw [ha, hb] at h; simp [bind, Except.bind] at h
    have tag : ∀ (a b : Nat), (do
        let y ← deref pool lim b
        .ok (.pair (.int a) y) : Res PVal) = .error e → ReaderError e := by
      intro a b h
      cases hb : deref pool lim b with
      | error y =>
        rw [hb] at h
        simp only [bind, Except.bind, Except.error.injEq] at h
        subst h; exact ih hb
      | ok y => rw [hb] at h; simp [bind, Except.bind] at h
    rw [deref] at h
    by_cases hi : i = 0
    · rw [if_pos hi] at h
      cases h; exact .inr (.inr (.inr (.inl rfl)))
    · rw [if_neg hi] at h
      cases hp : pool[i]? with
      | none => rw [hp] at h; cases h; exact .inr (.inr (.inr (.inl rfl)))
      | some o =>
        rw [hp] at h
        cases o with
        | none => cases h; exact .inr (.inr (.inl rfl))
        | some c =>
          cases c with
          | utf8 s => cases h
          | integer v => cases h
          | float v => cases h
          | long v => cases h
          | double v => cases h
          | cls n => exact one n h
          | string n => exact one n h
          | methodType n => exact one n h
          | module n => exact one n h
          | package n => exact one n h
          | fieldref a b => exact two a b h
          | methodref a b => exact two a b h
          | ifaceMethodref a b => exact two a b h
          | nameAndType a b => exact two a b h
          | moduleId a b => exact two a b h
          | invokeDynamic a b => exact tag a b h
          | dynamic a b => exact tag a b h
          | methodHandle a b => exact tag a b h

theorem raises_constItem : Raises unpackConstItem ReaderError := by
  unfold unpackConstItem
  refine Raises.bind (raises_read _) (fun t => ?_)
  have u : Raises u2 ReaderError := raises_read _
  have uu : Raises u2u2 ReaderError := raises_read _
  have bu : Raises u1u2 ReaderError := raises_read _
  have ite : ∀ (c : Prop) [Decidable c] (p q : Prog Const), Raises p ReaderError →
      Raises q ReaderError → Raises (if c then p else q) ReaderError := by
    intro c _ p q hp hq
    split
    · exact hp
    · exact hq
  repeat' apply ite
  · exact Raises.bind u (fun n => Raises.bind (raises_read _) (fun _ => Raises.ret _ _))
  all_goals first
    | exact raises_read _
    | exact Raises.bind u (fun _ => Raises.ret _ _)
    | exact Raises.bind uu (fun _ => Raises.ret _ _)
    | exact Raises.bind bu (fun _ => Raises.ret _ _)
    | exact Raises.fail (.inr (.inr (.inl rfl)))

theorem raises_poolLoop (n : Nat) (b : Bool) : Raises (poolLoop n b) ReaderError := by
  induction n generalizing b with
  | zero => cases b <;> exact Raises.ret _ _
  | succ n ih =>
    cases b with
    | true => exact Raises.bind (ih _) (fun _ => Raises.ret _ _)
    | false =>
      exact Raises.bind raises_constItem (fun c => Raises.bind (ih _) (fun _ => Raises.ret _ _))

theorem raises_attribs (pool : Pool) (lim : Nat) : Raises (unpackAttribs pool lim) ReaderError := by
  refine Raises.bind (raises_counted ?_) (fun _ => Raises.ret _ _)
  exact Raises.bind (raises_read _) (fun h => Raises.bind (raises_read _) (fun buf =>
    Raises.bind (Raises.lift (fun e he => deref_errors he)) (fun _ => Raises.ret _ _)))

theorem raises_member (pool : Pool) (lim : Nat) (b : Bool) :
    Raises (unpackMember pool lim b) ReaderError :=
  Raises.bind (raises_read _) (fun _ => Raises.bind (raises_attribs pool lim) (fun _ => Raises.ret _ _))

/-- C82. Whatever the data, `unpack_class` returns or raises one of five kinds of exception. -/
theorem C82_exceptions (lim : Nat) (d : Bytes) (e : PyErr)
    (h : unpackClass lim (.bytes d) = .error e) :
    (∃ f w q, e = .unpack f w q) ∨ e = .classUnpack ∨ e = .unknownTag ∨ e = .indexError ∨
    e = .recursionError := by
  have key : Raises (unpackClassProg lim) ReaderError := by
    refine Raises.bind (raises_read _) (fun m => ?_)
    split
    · exact Raises.fail (.inr (.inl rfl))
    · unfold unpackClassBody
      refine Raises.bind (raises_read _) (fun v => Raises.bind (Raises.bind (raises_read _)
        (fun n => Raises.bind (raises_poolLoop _ _) (fun _ => Raises.ret _ _))) (fun pool => ?_))
      refine Raises.bind (raises_read _) (fun h => Raises.bind (raises_read _) (fun n =>
        Raises.bind (raises_read _) (fun ifs => ?_)))
      refine Raises.bind (raises_counted (raises_member pool lim false)) (fun fs => ?_)
      refine Raises.bind (raises_counted (raises_member pool lim true)) (fun ms => ?_)
      exact Raises.bind (raises_attribs pool lim) (fun _ => Raises.ret _ _)
  unfold unpackClass Prog.runOn at h
  cases hr : (unpackClassProg lim).runBuf ⟨some d, 0⟩ with
  | mk r s =>
    simp only [hr] at h
    subst h
    exact key d 0 e s (Nat.zero_le _) hr

/-- C82 as documented: malformed data raises `ClassUnpackException` or `UnpackException`, and
features that are not understood raise `Unimplemented`. -/
def C82_full : Prop := ∀ (lim : Nat) (d : Bytes) (e : PyErr),
  unpackClass lim (.bytes d) = .error e →
    (∃ f w q, e = .unpack f w q) ∨ e = .classUnpack ∨ e = .unimplemented

/-- C82 is false: a constant with an unknown tag raises
`UnknownConstantPoolTagException`, which is none of them. -/
theorem C82_full_fails : ¬ C82_full := by
  intro h
  have h1 : unpackClass 5 (.bytes [0xCA, 0xFE, 0xBA, 0xBE, 0, 0, 0, 50, 0, 2, 99]) =
      .error .unknownTag := by decide +kernel
  rcases h 5 _ _ h1 with ⟨f, w, q, hx⟩ | hx | hx <;> cases hx

/-- C82, the part that holds: when all constants have known tags and attribute names refer to
Utf8 entries, only truncation can be reported, as `UnpackException`. (A strict prefix of any
class file.) -/
theorem C82_truncated_partial (c : ClassS) (h : c.Valid) (lim m : Nat) (hm : m < c.enc.length) :
    ∃ f w q, unpackClass (lim + 1) (.bytes (c.enc.take m)) = .error (.unpack f w q) := by
  obtain ⟨f, w, q, h1, _⟩ := C06_truncated_class_refused c h lim m hm
  exact ⟨f, w, q, h1⟩

/-- The other kinds occur. -/
example :
    unpackClass 5 (.bytes [0xCA, 0xFE, 0xBA, 0xBE, 0, 0, 0, 50, 0, 1, 0, 0, 0, 0, 0, 0, 0, 0,
      0, 0, 0, 0, 0, 1, 0, 9, 0, 0, 0, 0]) = .error .indexError ∧
    unpackClass 5 (.bytes [0xCA, 0xFE, 0xBA, 0xBE, 0, 0, 0, 50, 0, 2, 7, 0, 1, 0, 0, 0, 0, 0, 0,
      0, 0, 0, 0, 0, 0, 0, 1, 0, 1, 0, 0, 0, 0]) = .error .recursionError ∧
    unpackClass 5 (.bytes [0xCA, 0xFE, 0xBA]) = .error (.unpack (some ">BBBB") 4 3) ∧
    unpackClass 5 (.bytes [0xCA, 0xFE, 0xBA, 0]) = .error .classUnpack := by
  refine ⟨?_, ?_, ?_, ?_⟩ <;> decide +kernel

/-! ## C83 -/

/-- Internal class name as written in Java. -/
def dotted (n : Str) : Str := n.map fun c => if c = '/' then '.' else c

/-- What `pretty_deref_const` should show for a constant. -/
inductive ConstShows (fmt repr : PVal → Str) (pool : Pool) : Const → PVal → Prop where
  | utf8 {s} : ConstShows fmt repr pool (.utf8 s) (.str s)
  | integer {v} : ConstShows fmt repr pool (.integer v) (.int v)
  | long {v} : ConstShows fmt repr pool (.long v) (.int v)
  | float {b} : ConstShows fmt repr pool (.float b) (.flt (float32 b))
  | double {b} : ConstShows fmt repr pool (.double b) (.flt (float64 b))
  | string {n s} : Utf8At pool n s → ConstShows fmt repr pool (.string n) (.str s)
  | cls {n s} : Utf8At pool n s → ConstShows fmt repr pool (.cls n) (.str (dotted s))
  | field {a b c n} {t : JType} : ClassAt pool a c → NameTypeAt pool b n t.desc →
      ConstShows fmt repr pool (.fieldref a b)
        (.str (dotted c ++ ".".toList ++ n ++ ":".toList ++ t.java))
  | method {a b c n} {args : List JType} {ret : Option JType} :
      (∀ t ∈ args, t.Names fun n => ')' ∉ n ∧ ';' ∉ n) → (∀ t, ret = some t → t.Names NoSemi) →
      ClassAt pool a c → NameTypeAt pool b n (methodDesc args ret) →
      ConstShows fmt repr pool (.methodref a b) (.str (dotted c ++ ".".toList ++ n ++
        ("(".toList ++ joinWith ",".toList (args.map JType.java) ++ ")".toList) ++ ":".toList ++
        retJava ret))
  | ifaceMethod {a b c n} {args : List JType} {ret : Option JType} :
      (∀ t ∈ args, t.Names fun n => ')' ∉ n ∧ ';' ∉ n) → (∀ t, ret = some t → t.Names NoSemi) →
      ClassAt pool a c → NameTypeAt pool b n (methodDesc args ret) →
      ConstShows fmt repr pool (.ifaceMethodref a b) (.str (dotted c ++ ".".toList ++ n ++
        ("(".toList ++ joinWith ",".toList (args.map JType.java) ++ ")".toList) ++ ":".toList ++
        retJava ret))
  | fieldNameType {a b n} {t : JType} : t.Names NoSemi → Utf8At pool a n → Utf8At pool b t.desc →
      ConstShows fmt repr pool (.nameAndType a b) (.str (n ++ ":".toList ++ t.java))
  | methodNameType {a b n} {args : List JType} {ret : Option JType} :
      (∀ t ∈ args, t.Names fun n => ')' ∉ n ∧ ';' ∉ n) → (∀ t, ret = some t → t.Names NoSemi) →
      Utf8At pool a n → Utf8At pool b (methodDesc args ret) →
      ConstShows fmt repr pool (.nameAndType a b) (.str (n ++ ":".toList ++
        (("(".toList ++ joinWith ",".toList (args.map JType.java) ++ ")".toList) ++ retJava ret)))
  | moduleId {a b n v} : Utf8At pool a n → Utf8At pool b v →
      ConstShows fmt repr pool (.moduleId a b) (.str (n ++ "@".toList ++ v))
  | invokeDynamic {a b n t} : NameTypeAt pool b n t →
      ConstShows fmt repr pool (.invokeDynamic a b) (.str ("InvokeDynamic ".toList ++ repr (.int a) ++
        " ".toList ++ repr (.pair (.str n) (.str t))))
  | dynamic {a b n t} : NameTypeAt pool b n t →
      ConstShows fmt repr pool (.dynamic a b) (.str ("Dynamic ".toList ++ repr (.int a) ++
        " ".toList ++ repr (.pair (.str n) (.str t))))

theorem deref_utf8_at {pool : Pool} (h0 : pool[0]? = some none) {i : Nat} {s : Str}
    (h : Utf8At pool i s) (lim : Nat) : deref pool (lim + 1) i = .ok (.str s) := by
  have hi : i ≠ 0 := by rintro rfl; unfold Utf8At at h; rw [h0] at h; cases h
  unfold Utf8At at h
  simp only [deref, if_neg hi, h]

theorem deref_class_at {pool : Pool} (h0 : pool[0]? = some none) {i : Nat} {s : Str}
    (h : ClassAt pool i s) (lim : Nat) : deref pool (lim + 2) i = .ok (.str s) := by
  obtain ⟨n, h1, h2⟩ := h
  have hi : i ≠ 0 := by rintro rfl; rw [h0] at h1; cases h1
  have e : deref pool (lim + 2) i = deref pool (lim + 1) n := by rw [deref, if_neg hi, h1]
  rw [e]; exact deref_utf8_at h0 h2 lim

theorem deref_nametype_at {pool : Pool} (h0 : pool[0]? = some none) {i : Nat} {n t : Str}
    (h : NameTypeAt pool i n t) (lim : Nat) :
    deref pool (lim + 2) i = .ok (.pair (.str n) (.str t)) := by
  obtain ⟨a, b, h1, h2, h3⟩ := h
  have hi : i ≠ 0 := by rintro rfl; rw [h0] at h1; cases h1
  have e : deref pool (lim + 2) i = (do
      let x ← deref pool (lim + 1) a
      let y ← deref pool (lim + 1) b
      .ok (.pair x y)) := by
    rw [deref, if_neg hi, h1]
  rw [e, deref_utf8_at h0 h2 lim, deref_utf8_at h0 h3 lim]
  rfl

/-- C83, the part that holds: for every kind of constant except method handles, method types,
modules and packages, `pretty_deref_const` gives the text (or number) meant. Missing: those
four. -/
theorem C83_pretty_deref_partial (fmt repr : PVal → Str) (hfmt : ∀ s, fmt (.str s) = s)
    (pool : Pool) (h0 : pool[0]? = some none) (lim i : Nat) (c : Const) (v : PVal)
    (hc : pool[i]? = some (some c)) (hv : ConstShows fmt repr pool c v) :
    prettyDerefConst fmt repr pool (lim + 2) i = .ok v := by
  unfold prettyDerefConst
  rw [hc]
  cases hv with
  | utf8 => rfl
  | integer => rfl
  | long => rfl
  | float => rfl
  | double => rfl
  | string h => exact deref_utf8_at h0 h (lim + 1)
  | cls h =>
    simp only [prettyDerefApi, deref_utf8_at h0 h (lim + 1)]
    rfl
  | field h1 h2 =>
    simp only [prettyDerefApi, deref_class_at h0 h1 lim, deref_nametype_at h0 h2 lim, bind,
      Except.bind, PVal.asStr, PVal.asPair, prettyType_desc, Except.map]
    rfl
  | method ha hr h1 h2 =>
    simp only [prettyDerefApi, deref_class_at h0 h1 lim, deref_nametype_at h0 h2 lim, bind,
      Except.bind, PVal.asStr, PVal.asPair, prettyTypeseq_method _ _ ha hr, Except.map]
    rfl
  | ifaceMethod ha hr h1 h2 =>
    simp only [prettyDerefApi, deref_class_at h0 h1 lim, deref_nametype_at h0 h2 lim, bind,
      Except.bind, PVal.asStr, PVal.asPair, prettyTypeseq_method _ _ ha hr, Except.map]
    rfl
  | fieldNameType hn h1 h2 =>
    rename_i a b n t
    have e : prettyTypeseq t.desc = .ok [t.java] := by
      unfold prettyTypeseq
      have := typeseq_descs [t] (by simpa using hn)
      simp only [List.flatMap_cons, List.flatMap_nil, List.append_nil, List.map_cons, List.map_nil]
        at this
      rw [this]
      simp only [bind, Except.bind, List.mapM_cons, prettyType_desc, List.mapM_nil]
      rfl
    simp only [deref_utf8_at h0 h1 (lim + 1), deref_utf8_at h0 h2 (lim + 1), bind, Except.bind,
      PVal.asStr, e, hfmt, List.flatten_cons, List.flatten_nil, List.append_nil]
  | methodNameType ha hr h1 h2 =>
    simp only [deref_utf8_at h0 h1 (lim + 1), deref_utf8_at h0 h2 (lim + 1), bind, Except.bind,
      PVal.asStr, prettyTypeseq_method _ _ ha hr, hfmt, List.flatten_cons, List.flatten_nil,
      List.append_nil]
  | moduleId h1 h2 =>
    simp only [deref_utf8_at h0 h1 (lim + 1), deref_utf8_at h0 h2 (lim + 1), bind, Except.bind, hfmt]
  | invokeDynamic h => simp only [deref_nametype_at h0 h lim, bind, Except.bind]
  | dynamic h => simp only [deref_nametype_at h0 h lim, bind, Except.bind]

/-- C83, exactly, for the rest: the other kinds always raise, whatever the pool; an unusable
slot (index 0 and after a long or double) gives the empty text and an index past the end
raises `IndexError`. -/
theorem C83_others (fmt repr : PVal → Str) (pool : Pool) (lim i : Nat) :
    (∀ n, pool[i]? = some (some (.methodType n)) →
      prettyDerefConst fmt repr pool lim i = .error .typeError) ∧
    (∀ n, pool[i]? = some (some (.module n)) →
      prettyDerefConst fmt repr pool lim i = .error .attributeError) ∧
    (∀ n, pool[i]? = some (some (.package n)) →
      prettyDerefConst fmt repr pool lim i = .error .attributeError) ∧
    (∀ k n, pool[i]? = some (some (.methodHandle k n)) →
      prettyDerefConst fmt repr pool lim i = .error .unknownTag) ∧
    (pool[i]? = some none → prettyDerefConst fmt repr pool lim i = .ok (.str [])) ∧
    (pool[i]? = none → prettyDerefConst fmt repr pool lim i = .error .indexError) := by
  unfold prettyDerefConst
  refine ⟨?_, ?_, ?_, ?_, ?_, ?_⟩ <;> intros <;> simp_all

/-- C83 as stated: every constant of a pool whose references have the right kinds has a text. -/
def C83_full : Prop := ∀ (fmt repr : PVal → Str) (pool : Pool) (i : Nat) (c : Const),
  WellTyped pool → pool[i]? = some (some c) →
  ∃ lim v, prettyDerefConst fmt repr pool lim i = .ok v

/-- C83 is false: a method type has none. -/
theorem C83_full_fails : ¬ C83_full := by
  intro h
  have hw : WellTyped [none, some (.methodType 2), some (.utf8 ['V'])] := by
    refine ⟨rfl, ?_⟩
    intro i c hc
    match i, hc with
    | 1, hc => cases hc; exact ⟨.str ['V'], ['V'], rfl, rfl⟩
    | 2, hc => cases hc; exact ⟨.str ['V'], rfl⟩
    | n + 3, hc => simp at hc
  obtain ⟨lim, v, hv⟩ := h (fun _ => []) (fun _ => []) _ 1 (.methodType 2) hw rfl
  simp [prettyDerefConst] at hv

example :
    let pool : Pool := [none, some (.methodref 2 4), some (.cls 3), some (.utf8 "a/B".toList),
      some (.nameAndType 5 6), some (.utf8 "f".toList), some (.utf8 "(I[J)V".toList)]
    let fmt : PVal → Str := fun v => match v with | .str s => s | _ => []
    prettyDerefConst fmt fmt pool 5 1 = .ok (.str "a.B.f(int,long[]):void".toList) ∧
    prettyDerefConst fmt fmt pool 5 4 = .ok (.str "f:(int,long[])void".toList) := by
  decide +kernel

/-! ## C84 -/

/-- What a catch type refers to: `none` is "any". -/
def CatchAt (pool : Pool) (i : Nat) : Option Str → Prop
  | none => i = 0
  | some c => ClassAt pool i c

theorem catchType_at {pool : Pool} (h0 : pool[0]? = some none) {e : ExcInfo} {c : Option Str}
    (h : CatchAt pool e.catchRef c) (lim : Nat) :
    e.catchType pool (lim + 2) = .ok (c.map PVal.str) := by
  unfold ExcInfo.catchType
  cases c with
  | none =>
    have h' : e.catchRef = 0 := h
    rw [if_pos h']; rfl
  | some s =>
    have h' : ClassAt pool e.catchRef s := h
    have hi : e.catchRef ≠ 0 := by
      obtain ⟨n, h1, _⟩ := h'
      intro hz; rw [hz, h0] at h1; cases h1
    rw [if_neg hi, deref_class_at h0 h' lim]; rfl

/-- C84. Two exception handlers are equal exactly when their ranges and handlers are and they
catch the same class (or both catch anything), whatever the numbering of their constant
pools. -/
theorem C84_equality_partial (lp rp : Pool) (hl : lp[0]? = some none) (hr : rp[0]? = some none)
    (l r : ExcInfo) (lc rc : Option Str) (lim : Nat) (h1 : CatchAt lp l.catchRef lc)
    (h2 : CatchAt rp r.catchRef rc) :
    excEq lp rp (lim + 2) l r = .ok (decide (l.startPc = r.startPc ∧ l.endPc = r.endPc ∧
      l.handlerPc = r.handlerPc ∧ lc = rc)) := by
  unfold excEq
  simp only [catchType_at hl h1 lim, catchType_at hr h2 lim]
  congr 1
  have ho : optEq (lc.map PVal.str) (rc.map PVal.str) = decide (lc = rc) := by
    cases lc <;> cases rc <;> simp [optEq, pyEq]
  rw [ho]
  rw [← Bool.decide_and, ← Bool.decide_and, ← Bool.decide_and]
  congr 1
  simp only [eq_iff_iff]
  constructor
  · rintro ⟨⟨⟨a, b⟩, c⟩, d⟩; exact ⟨a, b, c, d⟩
  · rintro ⟨a, b, c, d⟩; exact ⟨⟨⟨a, b⟩, c⟩, d⟩

/-- C84. `info()` and the pretty catch type. -/
theorem C84_info_partial (pool : Pool) (h0 : pool[0]? = some none) (e : ExcInfo) (c : Option Str) (lim : Nat)
    (h : CatchAt pool e.catchRef c) :
    e.info pool (lim + 2) = .ok (e.startPc, e.endPc, e.handlerPc, c.map PVal.str) ∧
    e.prettyCatchType pool (lim + 2) = .ok (match c with
      | none => "any".toList
      | some [] => "any".toList
      | some n => "Class ".toList ++ dotted n) := by
  unfold ExcInfo.info ExcInfo.prettyCatchType
  rw [catchType_at h0 h lim]
  constructor
  · rfl
  · cases c with
    | none => rfl
    | some n =>
      cases n with
      | nil => rfl
      | cons x xs => rfl

/-- C84 as stated: an exception handler has a text. -/
def C84_full : Prop := ∀ (pool : Pool) (e : ExcInfo) (c : Option Str),
  pool[0]? = some none → CatchAt pool e.catchRef c → ∃ lim s, e.str pool lim = .ok s

/-- C84: `str()` of an exception handler never succeeds. -/
theorem C84_str_always_fails (pool : Pool) (e : ExcInfo) (lim : Nat) :
    ∃ x, e.str pool lim = .error x := by
  unfold ExcInfo.str
  cases h : e.info pool lim with
  | error x => exact ⟨x, rfl⟩
  | ok v => exact ⟨.typeError, rfl⟩

theorem C84_full_fails : ¬ C84_full := by
  intro h
  obtain ⟨lim, s, hs⟩ := h [none] ⟨0, 1, 2, 0⟩ none rfl rfl
  obtain ⟨x, hx⟩ := C84_str_always_fails [none] ⟨0, 1, 2, 0⟩ lim
  rw [hs] at hx; cases hx

example :
    let lp : Pool := [none, some (.cls 2), some (.utf8 "a/E".toList)]
    let rp : Pool := [none, some (.utf8 "a/E".toList), some (.cls 1)]
    excEq lp rp 5 ⟨0, 1, 2, 1⟩ ⟨0, 1, 2, 2⟩ = .ok true ∧
    excEq lp rp 5 ⟨0, 1, 2, 1⟩ ⟨0, 1, 2, 0⟩ = .ok false ∧
    (ExcInfo.mk 0 1 2 1).prettyCatchType lp 5 = .ok "Class a.E".toList := by decide +kernel

end Javatools
