import Verif.Model.ClassFile
import Verif.Spec.ClassObject
import Verif.Proofs.Pack
import Verif.Proofs.Utf8
import Verif.Proofs.Dict
/-
Lemmas: the class-file reader inverts the class-file encoding.
-/
namespace Javatools
open Spec

theorem decodeUtf8Const_mutf8 (us : List Nat) (h : ∀ u ∈ us, u < 65536) :
    decodeUtf8Const (mutf8 us) = javaText us := by
  unfold decodeUtf8Const javaText
  rw [decodeStrict_mutf8 us h]
  by_cases hall : ∀ u ∈ us, u ≠ 0 ∧ ¬ isSurrogate u
  · rw [if_pos hall]
    simp only
    rw [List.filter_eq_self.2]
    intro u hu; simpa using (hall u hu).2
  · rw [if_neg hall]
    simp only
    rw [replace_mutf8 us h, decodeIgnore_units us h]

theorem isWide_constOf (e : CpInfo) : (constOf e).isWide = decide (e.width = 2) := by
  cases e <;> rfl

theorem Decodes.int {fmt : Option String} {w : Nat} {v : Int} {α : Type} (f : Int → α)
    (h : SRange w v) :
    Decodes (.read fmt w fun bs => .ret (f (toSigned w (beNat bs)))) (beInt w v) (f v) := by
  refine Decodes.read_ret (by simp [beInt, be_length]) ?_
  have hP : 0 < 256 ^ w := Nat.pow_pos (by decide)
  have hlt : (v % (256 ^ w : Nat)).toNat < 256 ^ w := by
    have := Int.emod_lt_of_pos v (b := ((256 ^ w : Nat) : Int)) (by omega)
    have := Int.emod_nonneg v (b := ((256 ^ w : Nat) : Int)) (by omega)
    omega
  rw [beInt, beNat_be_of_lt hlt, toSigned_mod w v h]

theorem Decodes.nat {fmt : Option String} {w n : Nat} {α : Type} (f : Nat → α) (h : n < 256 ^ w) :
    Decodes (.read fmt w fun bs => .ret (f (beNat bs))) (be w n) (f n) :=
  Decodes.read_ret (by simp [be_length]) (by rw [beNat_be_of_lt h])

theorem Decodes.bind_ret {α β : Type} {p : Prog α} {f : α → β} {bs : Bytes} {a : α}
    (h : Decodes p bs a) : Decodes (p.bind fun x => .ret (f x)) bs (f a) := by
  have := Decodes.bind (f := fun x => Prog.ret (f x)) h (Decodes.ret (f a))
  simpa using this

theorem Decodes.constItem (e : CpInfo) (h : e.Valid) : Decodes unpackConstItem e.enc (constOf e) := by
  unfold unpackConstItem
  cases e with
  | utf8 us =>
    refine Decodes.bind (Decodes.u1 (by decide)) ?_
    simp only [if_true]
    refine Decodes.bind (Decodes.u2 h.2) ?_
    have := Decodes.bind_ret (f := fun raw => Const.utf8 (decodeUtf8Const raw)) (Decodes.readBytes (mutf8 us))
    rw [decodeUtf8Const_mutf8 us h.1] at this
    exact this
  | integer v => exact Decodes.bind (Decodes.u1 (by decide)) (by simp; exact Decodes.int (fun v => Const.integer v) h)
  | float b => exact Decodes.bind (Decodes.u1 (by decide)) (by simp; exact Decodes.nat (fun v => Const.float v) h)
  | long v => exact Decodes.bind (Decodes.u1 (by decide)) (by simp; exact Decodes.int (fun v => Const.long v) h)
  | double b => exact Decodes.bind (Decodes.u1 (by decide)) (by simp; exact Decodes.nat (fun v => Const.double v) h)
  | cls n => exact Decodes.bind (Decodes.u1 (by decide)) (by simp; exact Decodes.bind_ret (Decodes.u2 h))
  | string n => exact Decodes.bind (Decodes.u1 (by decide)) (by simp; exact Decodes.bind_ret (Decodes.u2 h))
  | methodType n => exact Decodes.bind (Decodes.u1 (by decide)) (by simp; exact Decodes.bind_ret (Decodes.u2 h))
  | module n => exact Decodes.bind (Decodes.u1 (by decide)) (by simp; exact Decodes.bind_ret (Decodes.u2 h))
  | package n => exact Decodes.bind (Decodes.u1 (by decide)) (by simp; exact Decodes.bind_ret (Decodes.u2 h))
  | fieldref a b => exact Decodes.bind (Decodes.u1 (by decide)) (by simp; exact Decodes.bind_ret (Decodes.u2u2 h.1 h.2))
  | methodref a b => exact Decodes.bind (Decodes.u1 (by decide)) (by simp; exact Decodes.bind_ret (Decodes.u2u2 h.1 h.2))
  | ifaceMethodref a b => exact Decodes.bind (Decodes.u1 (by decide)) (by simp; exact Decodes.bind_ret (Decodes.u2u2 h.1 h.2))
  | nameAndType a b => exact Decodes.bind (Decodes.u1 (by decide)) (by simp; exact Decodes.bind_ret (Decodes.u2u2 h.1 h.2))
  | moduleId a b => exact Decodes.bind (Decodes.u1 (by decide)) (by simp; exact Decodes.bind_ret (Decodes.u2u2 h.1 h.2))
  | dynamic a b => exact Decodes.bind (Decodes.u1 (by decide)) (by simp; exact Decodes.bind_ret (Decodes.u2u2 h.1 h.2))
  | invokeDynamic a b => exact Decodes.bind (Decodes.u1 (by decide)) (by simp; exact Decodes.bind_ret (Decodes.u2u2 h.1 h.2))
  | methodHandle a b => exact Decodes.bind (Decodes.u1 (by decide)) (by simp; exact Decodes.bind_ret (Decodes.u1u2 h.1 h.2))

theorem width_cases (e : CpInfo) : e.width = 1 ∨ e.width = 2 := by cases e <;> simp [CpInfo.width]

theorem Decodes.poolLoop (es : List CpInfo) (h : ∀ e ∈ es, e.Valid) :
    Decodes (poolLoop (es.map CpInfo.width).sum false) (es.flatMap CpInfo.enc)
      ((cpSlots es).map (Option.map constOf)) := by
  induction es with
  | nil => exact Decodes.ret []
  | cons e es ih =>
    have ih' := ih (fun x hx => h x (by simp [hx]))
    have he := Decodes.constItem e (h e (by simp))
    simp only [List.map_cons, List.sum_cons, List.flatMap_cons, cpSlots, List.map_append,
      List.map_replicate, Option.map_some, Option.map_none]
    rcases width_cases e with hw | hw
    · rw [hw, Nat.add_comm 1]
      simp only [Javatools.poolLoop]
      refine Decodes.bind he ?_
      rw [isWide_constOf, hw]
      simp only [Nat.sub_self, List.replicate_zero, List.nil_append]
      exact Decodes.bind_ret (f := fun r => some (constOf e) :: r) ih'
    · rw [hw, Nat.add_comm 2]
      simp only [Javatools.poolLoop]
      refine Decodes.bind he ?_
      rw [isWide_constOf, hw]
      simp only [decide_true, Javatools.poolLoop, List.replicate, List.cons_append, List.nil_append]
      exact Decodes.bind_ret (f := fun r => some (constOf e) :: r)
        (Decodes.bind_ret (f := fun r => none :: r) ih')

theorem Decodes.unpackPool (es : List CpInfo) (h : ∀ e ∈ es, e.Valid) (hc : cpCount es < 65536) :
    Decodes unpackPool (encPool es) (poolOf es) := by
  refine Decodes.bind (Decodes.u2 hc) ?_
  have : cpCount es - 1 = (es.map CpInfo.width).sum := by simp [cpCount]
  rw [this]
  exact Decodes.bind_ret (f := fun r => none :: r) (Decodes.poolLoop es h)

theorem cpSlots_length (es : List CpInfo) : (cpSlots es).length = (es.map CpInfo.width).sum := by
  induction es with
  | nil => rfl
  | cons e es ih =>
    rcases width_cases e with h | h <;> simp [cpSlots, ih, h] <;> omega

theorem cpSlots_getElem (es : List CpInfo) (k : Nat) (e : CpInfo) (h : es[k]? = some e) :
    (cpSlots es)[((es.take k).map CpInfo.width).sum]? = some (some e) ∧
    (e.width = 2 → (cpSlots es)[((es.take k).map CpInfo.width).sum + 1]? = some none) := by
  induction es generalizing k with
  | nil => simp at h
  | cons x es ih =>
    cases k with
    | zero =>
      simp only [List.getElem?_cons_zero, Option.some.injEq] at h
      subst h
      simp only [List.take_zero, List.map_nil, List.sum_nil, cpSlots]
      refine ⟨rfl, ?_⟩
      intro hw
      simp [hw]
    | succ k =>
      simp only [List.getElem?_cons_succ] at h
      obtain ⟨h1, h2⟩ := ih k h
      have key : ∀ j, (cpSlots (x :: es))[x.width + j]? = (cpSlots es)[j]? := by
        intro j
        rcases width_cases x with hw | hw
        · simp [cpSlots, hw, Nat.add_comm 1]
        · simp [cpSlots, hw, Nat.add_comm 2]
      simp only [List.take_succ_cons, List.map_cons, List.sum_cons]
      rw [key, Nat.add_assoc, key]
      exact ⟨h1, h2⟩

theorem poolOf_index (es : List CpInfo) (k : Nat) (e : CpInfo) (h : es[k]? = some e) :
    (poolOf es)[cpIndex es k]? = some (some (constOf e)) ∧
    (e.width = 2 → (poolOf es)[cpIndex es k + 1]? = some none) := by
  obtain ⟨h1, h2⟩ := cpSlots_getElem es k e h
  unfold poolOf cpIndex
  constructor
  · rw [Nat.add_comm 1, List.getElem?_cons_succ, List.getElem?_map, h1]; rfl
  · intro hw
    have := h2 hw
    rw [Nat.add_comm 1, List.getElem?_cons_succ, List.getElem?_map, this]; rfl

theorem deref_utf8At {es : List CpInfo} {i : Nat} {us : List Nat} (h : utf8At es i us) (lim : Nat) :
    deref (poolOf es) (lim + 1) i = .ok (.str (javaText us)) := by
  obtain ⟨k, h1, h2⟩ := h
  have h3 := (poolOf_index es k _ h1).1
  rw [h2] at h3
  have h0 : i ≠ 0 := by rw [← h2]; unfold cpIndex; omega
  simp only [deref, h0, if_false, h3, constOf]

theorem textAt_of_utf8At {es : List CpInfo} {i : Nat} {us : List Nat} (h : utf8At es i us) :
    textAt es i = javaText us := by
  obtain ⟨k, h1, h2⟩ := h
  have h3 := (cpSlots_getElem es k _ h1).1
  unfold textAt
  rw [← h2, cpIndex, Nat.add_comm 1, List.getElem?_cons_succ, h3]

theorem Decodes.attr {es : List CpInfo} {a : AttrS} (h : a.Valid es) (lim : Nat) :
    Decodes (unpackAttr (poolOf es) (lim + 1)) a.enc (PVal.str (textAt es a.name), a.info) := by
  obtain ⟨hl, hn, us, hu⟩ := h
  unfold unpackAttr AttrS.enc
  refine Decodes.bind (Decodes.u2u4 hn (by simpa using hl)) ?_
  simp only
  have h1 : Decodes ((Prog.lift (deref (poolOf es) (lim + 1) a.name)).bind
      fun k => Prog.ret (k, a.info)) [] (PVal.str (textAt es a.name), a.info) := by
    have := Decodes.lift (deref_utf8At hu lim)
    rw [textAt_of_utf8At hu]
    exact Decodes.bind_ret (f := fun k => (k, a.info)) this
  have h2 := Decodes.bind (f := fun buf => (Prog.lift (deref (poolOf es) (lim + 1) a.name)).bind
      fun k => Prog.ret (k, buf)) (Decodes.readBytes a.info) h1
  simpa using h2

theorem Decodes.attribs {es : List CpInfo} {as : List AttrS} (hl : as.length < 65536)
    (h : ∀ a ∈ as, a.Valid es) (lim : Nat) :
    Decodes (unpackAttribs (poolOf es) (lim + 1)) (encAttrs as) (attribsOf es as) := by
  exact Decodes.bind_ret (f := PyDict.ofPairs)
    (Decodes.counted AttrS.enc (fun a => (PVal.str (textAt es a.name), a.info)) as hl
      (fun a ha => Decodes.attr (h a ha) lim))

theorem Decodes.member {es : List CpInfo} {m : MemberS} (h : m.Valid es) (isM : Bool) (lim : Nat) :
    Decodes (unpackMember (poolOf es) (lim + 1) isM) m.enc (memberOf es isM m) := by
  obtain ⟨h1, h2, h3, h4, h5⟩ := h
  exact Decodes.bind (Decodes.u2u2u2 h1 h2 h3)
    (Decodes.bind_ret (f := fun a => (⟨m.access, m.name, m.desc, a, isM⟩ : Member))
      (Decodes.attribs h4 h5 lim))

theorem Decodes.classProg (c : ClassS) (h : c.Valid) (lim : Nat) :
    Decodes (unpackClassProg (lim + 1)) c.enc (classOf c) := by
  obtain ⟨hmi, hma, hcc, hp, hac, hth, hsu, hil, hi, hfl, hf, hml, hm, hal, ha⟩ := h
  unfold unpackClassProg ClassS.enc
  refine Decodes.bind (a := javaMagic) (Decodes.read_ret rfl rfl) ?_
  simp only [ne_eq, not_true_eq_false, if_false]
  unfold unpackClassBody
  refine Decodes.bind (Decodes.u2u2 hmi hma) ?_
  refine Decodes.bind (Decodes.unpackPool c.pool hp hcc) ?_
  refine Decodes.bind (Decodes.u2u2u2 hac hth hsu) ?_
  refine Decodes.bind (Decodes.u2 hil) ?_
  refine Decodes.bind (Decodes.u2s c.interfaces hi) ?_
  refine Decodes.bind (Decodes.counted MemberS.enc (memberOf c.pool false) c.fields hfl
    (fun m hm => Decodes.member (hf m hm) false lim)) ?_
  refine Decodes.bind (Decodes.counted MemberS.enc (memberOf c.pool true) c.methods hml
    (fun m hm' => Decodes.member (hm m hm') true lim)) ?_
  exact Decodes.bind_ret (f := fun attribs => (⟨(c.major, c.minor), poolOf c.pool, c.access, c.this,
    c.super, c.interfaces, c.fields.map (memberOf c.pool false), c.methods.map (memberOf c.pool true),
    attribs⟩ : ClassInfo)) (Decodes.attribs hal ha lim)

end Javatools
