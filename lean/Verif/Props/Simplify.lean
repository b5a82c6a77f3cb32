import Verif.Model.Simplify
import Verif.Proofs.Dict
import Verif.Props.Attrs
import Verif.Props.Descriptor
import Verif.Props.ClassInfoCli

/-! C182: the dictionaries that describe fields and methods. -/

namespace Javatools

open Spec

/-- The attribute refers to a text, or there is no such attribute. -/
def TextAttr (a : Attribs) (pool : Pool) (name : String) : Option Str → Prop
  | none => getAttribute a name = none
  | some s => ∃ i, i < 65536 ∧ getAttribute a name = some (be 2 i) ∧ Utf8At pool i s

/-- The constant of a field, as kind and text, or there is none. -/
def ConstAttr (E : PrintEnv) (a : Attribs) (pool : Pool) : Option (Str × Str) → Prop
  | none => getAttribute a "ConstantValue" = none
  | some p => ∃ i c, i < 65536 ∧ getAttribute a "ConstantValue" = some (be 2 i) ∧ pool[i]? = some (some c) ∧
      constText E c = .ok p

/-- A field as in a class file: its name, its type, its generic signature and its constant. -/
structure FieldHas (E : PrintEnv) (m : Member) (pool : Pool) (n : Str) (t : JType) (sig : Option Str)
    (const : Option (Str × Str)) : Prop where
  null : pool[0]? = some none
  kind : m.isMethod = false
  name : Utf8At pool m.nameRef n
  desc : Utf8At pool m.descRef t.desc
  types : t.Names NoSemi
  sig : TextAttr m.attribs pool "Signature" sig
  const : ConstAttr E m.attribs pool const

/-- A method as in a class file: its name, the types of its arguments, its return type and its generic signature. -/
structure MethodHas (m : Member) (pool : Pool) (n : Str) (args : List JType) (ret : Option JType)
    (sig : Option Str) : Prop where
  null : pool[0]? = some none
  kind : m.isMethod = true
  name : Utf8At pool m.nameRef n
  desc : Utf8At pool m.descRef (methodDesc args ret)
  args : ∀ t ∈ args, t.Names fun n => ')' ∉ n ∧ ';' ∉ n
  ret : ∀ t, ret = some t → t.Names NoSemi
  sig : TextAttr m.attribs pool "Signature" sig

/-- What the dictionary of a member says under a key, `more` being what only fields or only methods have; `none` if
nothing is to be said. -/
def memberSays (n type : Str) (flags : List Str) (sig : Option Str) (deprecated : Bool) (more : Str × Option SimpleVal)
    (key : Str) : Option SimpleVal :=
  if key = "name".toList then some (.val (.str n))
  else if key = "type".toList then some (.text type)
  else if key = "access_flags".toList then some (.texts flags)
  else if key = "signature".toList then
    match sig with
    | some (c :: s) => some (.val (.str (c :: s)))
    | _ => none
  else if key = "deprecated".toList then if deprecated then some (.flag true) else none
  else if key = more.1 then more.2
  else none

/-- The words for the flags. -/
def Member.words (m : Member) : List Str := (m.prettyAccessFlags false).map String.toList

/-- C182 in full: the dictionary for a field has its name, its type, its flags, its generic signature and its constant
if it has them, and says that it is deprecated if it is; under all other keys it has what was there; and so for
methods, with the types of the arguments. -/
def C182_full : Prop :=
  (∀ (E : PrintEnv) (m : Member) (pool : Pool) (data : PyDict Str SimpleVal) (n : Str) (t : JType) (sig : Option Str)
    (const : Option (Str × Str)), 0 < E.lim → FieldHas E m pool n t sig const →
    ∃ d, simplifyField E m pool data = .ok d ∧ ∀ key, d.get? key =
      (memberSays n t.java m.words sig (getAttribute m.attribs "Deprecated").isSome
        ("constant_value".toList, const.map fun p => .const p.1 p.2) key).or (data.get? key)) ∧
  ∀ (E : PrintEnv) (m : Member) (pool : Pool) (data : PyDict Str SimpleVal) (n : Str) (args : List JType)
    (ret : Option JType) (sig : Option Str), 0 < E.lim → MethodHas m pool n args ret sig →
    ∃ d, simplifyMethod E m pool data = .ok d ∧ ∀ key, d.get? key =
      (memberSays n (retJava ret) m.words sig (getAttribute m.attribs "Deprecated").isSome
        ("arg_types".toList, some (.texts (args.map JType.java))) key).or (data.get? key)

theorem textAttr_deref {a : Attribs} {pool : Pool} {name : String} {v : Option Str} (h0 : pool[0]? = some none)
    (h : TextAttr a pool name v) {lim : Nat} (hl : 0 < lim) : derefAttr a pool lim name = .ok (v.map PVal.str) := by
  cases v with
  | none => unfold derefAttr; rw [show getAttribute a name = none from h]; rfl
  | some s =>
    obtain ⟨i, hi, h1, h2⟩ := h
    obtain ⟨l, rfl⟩ : ∃ l, lim = l + 1 := ⟨lim - 1, by omega⟩
    unfold derefAttr
    have hr : u2.run (be 2 i) = .ok i := (u2_run_iff _ _).2 ⟨[], hi, by simp⟩
    rw [h1]
    simp only [hr, bind, Except.bind, deref_utf8_at h0 h2 l, Option.map]

/-- The same for keys in general. -/
def memberSaysAt (kn kt ka ks kd : Str) (n type : Str) (flags : List Str) (sig : Option Str) (deprecated : Bool)
    (more : Str × Option SimpleVal) (key : Str) : Option SimpleVal :=
  if key = kn then some (.val (.str n))
  else if key = kt then some (.text type)
  else if key = ka then some (.texts flags)
  else if key = ks then
    match sig with
    | some (c :: s) => some (.val (.str (c :: s)))
    | _ => none
  else if key = kd then if deprecated then some (.flag true) else none
  else if key = more.1 then more.2
  else none

theorem keys_eq {kn kt ka ks kd km key : Str} (hn : [kn, kt, ka, ks, kd, km].Nodup) (n type : Str) (flags : List Str)
    (sig : Option Str) (dep : Bool) (more base : Option SimpleVal) :
    (if key = kd ∧ dep = true then some (.flag true)
      else if key = ks then
        match sig with
        | some (c :: s) => some (.val (.str (c :: s)))
        | _ => if key = km then more.or base else if key = ka then some (.texts flags)
          else if key = kt then some (.text type) else if key = kn then some (.val (.str n)) else base
      else if key = km then more.or base else if key = ka then some (.texts flags)
        else if key = kt then some (.text type) else if key = kn then some (.val (.str n)) else base) =
    (memberSaysAt kn kt ka ks kd n type flags sig dep (km, more) key).or base := by
  simp only [List.nodup_cons, List.mem_cons, List.not_mem_nil, or_false, not_or, not_false_eq_true, List.nodup_nil,
    and_true] at hn
  obtain ⟨⟨a1, a2, a3, a4, a5⟩, ⟨b1, b2, b3, b4⟩, ⟨c1, c2, c3⟩, ⟨d1, d2⟩, e1⟩ := hn
  unfold memberSaysAt
  by_cases k1 : key = kn
  · subst k1; simp [*]
  by_cases k2 : key = kt
  · subst k2; simp [*]
  by_cases k3 : key = ka
  · subst k3; simp [*]
  by_cases k4 : key = ks
  · subst k4
    match sig with
    | none => simp [*]
    | some [] => simp [*]
    | some (c :: s) => simp [*]
  by_cases k5 : key = kd
  · subst k5; cases dep <;> simp [*]
  by_cases k6 : key = km
  · subst k6; simp [*]
  simp [*]

theorem sig_eq (k key : Str) (sig : Option Str) (data : PyDict Str SimpleVal) :
    (match truthyOnly (sig.map PVal.str) with
      | some v => data.set k (.val v)
      | none => data).get? key = (if key = k then
        match sig with
        | some (c :: s) => some (.val (.str (c :: s)))
        | _ => data.get? key
      else data.get? key) := by
  match sig with
  | none => simp [truthyOnly]
  | some [] => simp [truthyOnly, PVal.truthy]
  | some (c :: s) =>
    simp only [Option.map, truthyOnly, PVal.truthy, List.isEmpty_cons, Bool.not_false, if_true, PyDict.get?_set,
      eq_comm (a := key)]

theorem dep_eq (k key : Str) (dep : Bool) (d : PyDict Str SimpleVal) :
    (if dep = true then d.set k (.flag true) else d).get? key =
      if key = k ∧ dep = true then some (.flag true) else d.get? key := by
  cases dep
  · simp
  · simp only [if_true, PyDict.get?_set, and_true, eq_comm (a := key)]

theorem three_eq (k1 k2 k3 key : Str) (v1 v2 v3 : SimpleVal) (d : PyDict Str SimpleVal) :
    (((d.set k1 v1).set k2 v2).set k3 v3).get? key =
      if key = k3 then some v3 else if key = k2 then some v2 else if key = k1 then some v1 else d.get? key := by
  simp only [PyDict.get?_set, eq_comm (a := key)]

theorem marks_eq (E : PrintEnv) (m : Member) (pool : Pool) (data : PyDict Str SimpleVal) {sig : Option Str}
    (h0 : pool[0]? = some none) (h : TextAttr m.attribs pool "Signature" sig) (hl : 0 < E.lim) :
    ∃ d, simplifyMarks E m pool data = .ok d ∧ ∀ key, d.get? key =
      (if key = "deprecated".toList ∧ isDeprecated m.attribs = true then some (.flag true)
      else if key = "signature".toList then
        match sig with
        | some (c :: s) => some (.val (.str (c :: s)))
        | _ => data.get? key
      else data.get? key) := by
  unfold simplifyMarks
  rw [textAttr_deref h0 h hl]
  refine ⟨_, rfl, fun key => ?_⟩
  exact (dep_eq _ key _ _).trans (congrArg
    (fun z => if key = "deprecated".toList ∧ isDeprecated m.attribs = true then some (SimpleVal.flag true) else z)
    (sig_eq _ key sig data))

theorem head_eq (E : PrintEnv) (m : Member) (pool : Pool) (data : PyDict Str SimpleVal) {n type : Str}
    (h0 : pool[0]? = some none) (hn : Utf8At pool m.nameRef n) (ht : m.prettyType pool E.lim = .ok type)
    (hl : 0 < E.lim) :
    ∃ d, simplifyHead E m pool data = .ok d ∧ ∀ key, d.get? key =
      (if key = "access_flags".toList then some (.texts m.words)
      else if key = "type".toList then some (.text type)
      else if key = "name".toList then some (.val (.str n))
      else data.get? key) := by
  obtain ⟨l, hl⟩ : ∃ l, E.lim = l + 1 := ⟨E.lim - 1, by omega⟩
  unfold simplifyHead Member.getName
  rw [ht, hl, deref_utf8_at h0 hn l]
  refine ⟨_, rfl, fun key => ?_⟩
  exact three_eq _ _ _ key _ _ _ data

/-- What the dictionary for a field says, in all cases. -/
theorem C182_field (E : PrintEnv) (m : Member) (pool : Pool) (data : PyDict Str SimpleVal) (n : Str) (t : JType)
    (sig : Option Str) (const : Option (Str × Str)) (hl : 0 < E.lim) (h : FieldHas E m pool n t sig const) :
    ∃ d, simplifyField E m pool data = .ok d ∧ ∀ key, d.get? key =
      (memberSays n t.java m.words sig (isDeprecated m.attribs)
        ("constant_value".toList, const.map fun p => .const p.1 p.2) key).or (data.get? key) := by
  obtain ⟨l, hl'⟩ : ∃ l, E.lim = l + 1 := ⟨E.lim - 1, by omega⟩
  have hd : m.getDescriptor pool E.lim = .ok (.str t.desc) := by
    unfold Member.getDescriptor; rw [hl']; exact deref_utf8_at h.null h.desc l
  obtain ⟨d1, e1, g1⟩ := head_eq E m pool data h.null h.name
    (C23_field_accessors m pool E.lim t h.kind hd h.types).2.2.2 hl
  obtain ⟨d2, e2, g2⟩ := marks_eq E m pool d1 h.null h.sig hl
  have hnd : ["name".toList, "type".toList, "access_flags".toList, "signature".toList, "deprecated".toList,
      "constant_value".toList].Nodup := by decide +kernel
  have hk := fun key => keys_eq (key := key) hnd n t.java m.words sig (isDeprecated m.attribs)
    (const.map fun p => .const p.1 p.2) (data.get? key)
  cases const with
  | none =>
    have hc : getAttribute m.attribs "ConstantValue" = none := h.const
    refine ⟨d2, ?_, fun key => ?_⟩
    · unfold simplifyField Member.getConstantvalue
      rw [e1]
      simp only [bind, Except.bind, e2, hc]
    · refine Eq.trans ?_ (hk key)
      rw [g2, g1]
      have hb : ∀ x, (if key = "constant_value".toList then (Option.map (fun p : Str × Str => SimpleVal.const p.1 p.2) none).or (data.get? key)
          else x) = if key = "constant_value".toList then data.get? key else x := fun _ => rfl
      rw [hb]
      by_cases e : key = "constant_value".toList
      · subst e; rfl
      · rw [if_neg e]
  | some p =>
    obtain ⟨i, c, hi, hc, hp, ht⟩ := h.const
    have hr : u2.run (be 2 i) = .ok i := (u2_run_iff _ _).2 ⟨[], hi, by simp⟩
    refine ⟨d2.set "constant_value".toList (.const p.1 p.2), ?_, fun key => ?_⟩
    · unfold simplifyField Member.getConstantvalue poolText
      rw [e1]
      simp only [bind, Except.bind, e2, hc, hr, Except.map, hp, ht]
    · refine Eq.trans ?_ (hk key)
      rw [PyDict.get?_set]
      by_cases e : key = "constant_value".toList
      · subst e; rfl
      · rw [if_neg (fun e' => e e'.symm), g2, g1, if_neg e]

/-- What the dictionary for a method says, in all cases. -/
theorem C182_method (E : PrintEnv) (m : Member) (pool : Pool) (data : PyDict Str SimpleVal) (n : Str)
    (args : List JType) (ret : Option JType) (sig : Option Str) (hl : 0 < E.lim)
    (h : MethodHas m pool n args ret sig) :
    ∃ d, simplifyMethod E m pool data = .ok d ∧ ∀ key, d.get? key =
      (memberSays n (retJava ret) m.words sig (isDeprecated m.attribs)
        ("arg_types".toList, some (.texts (args.map JType.java))) key).or (data.get? key) := by
  obtain ⟨l, hl'⟩ : ∃ l, E.lim = l + 1 := ⟨E.lim - 1, by omega⟩
  have hd : m.getDescriptor pool E.lim = .ok (.str (methodDesc args ret)) := by
    unfold Member.getDescriptor; rw [hl']; exact deref_utf8_at h.null h.desc l
  obtain ⟨-, -, ha, ht⟩ := C23_method_accessors m pool E.lim args ret h.kind hd h.args h.ret
  obtain ⟨d1, e1, g1⟩ := head_eq E m pool data h.null h.name ht hl
  obtain ⟨d2, e2, g2⟩ := marks_eq E m pool (d1.set "arg_types".toList (.texts (args.map JType.java))) h.null h.sig hl
  refine ⟨d2, ?_, fun key => ?_⟩
  · unfold simplifyMethod
    rw [e1]
    simp only [bind, Except.bind, ha, e2]
  · have hnd : ["name".toList, "type".toList, "access_flags".toList, "signature".toList, "deprecated".toList,
        "arg_types".toList].Nodup := by decide +kernel
    refine Eq.trans ?_ (keys_eq (key := key) hnd n (retJava ret) m.words sig (isDeprecated m.attribs)
      (some (.texts (args.map JType.java))) (data.get? key))
    by_cases e : key = "arg_types".toList
    · subst e; rw [g2, PyDict.get?_set, g1]; rfl
    · have hx : (d1.set "arg_types".toList (.texts (args.map JType.java))).get? key = d1.get? key := by
        rw [PyDict.get?_set, if_neg fun e' => e e'.symm]
      rw [g2, hx, g1, if_neg e]

/-- C182, for members without an empty Deprecated attribute. Missing: the other ones, which are the deprecated ones
in class files as they should be. -/
theorem C182_partial :
    (∀ (E : PrintEnv) (m : Member) (pool : Pool) (data : PyDict Str SimpleVal) (n : Str) (t : JType) (sig : Option Str)
      (const : Option (Str × Str)), 0 < E.lim → FieldHas E m pool n t sig const →
      getAttribute m.attribs "Deprecated" ≠ some [] →
      ∃ d, simplifyField E m pool data = .ok d ∧ ∀ key, d.get? key =
        (memberSays n t.java m.words sig (getAttribute m.attribs "Deprecated").isSome
          ("constant_value".toList, const.map fun p => .const p.1 p.2) key).or (data.get? key)) ∧
    ∀ (E : PrintEnv) (m : Member) (pool : Pool) (data : PyDict Str SimpleVal) (n : Str) (args : List JType)
      (ret : Option JType) (sig : Option Str), 0 < E.lim → MethodHas m pool n args ret sig →
      getAttribute m.attribs "Deprecated" ≠ some [] →
      ∃ d, simplifyMethod E m pool data = .ok d ∧ ∀ key, d.get? key =
        (memberSays n (retJava ret) m.words sig (getAttribute m.attribs "Deprecated").isSome
          ("arg_types".toList, some (.texts (args.map JType.java))) key).or (data.get? key) := by
  have hdep : ∀ m : Member, getAttribute m.attribs "Deprecated" ≠ some [] →
      (getAttribute m.attribs "Deprecated").isSome = isDeprecated m.attribs := by
    intro m h
    unfold isDeprecated truthyAttr
    cases hg : getAttribute m.attribs "Deprecated" with
    | none => rfl
    | some b =>
      cases b with
      | nil => exact absurd hg h
      | cons x xs => rfl
  constructor
  · intro E m pool data n t sig const hl h hd
    rw [hdep m hd]
    exact C182_field E m pool data n t sig const hl h
  · intro E m pool data n args ret sig hl h hd
    rw [hdep m hd]
    exact C182_method E m pool data n args ret sig hl h

/-- The field `int x`, deprecated, with the constant 7. -/
def oldField : Member := ⟨0x19, 1, 2, [(.str "Deprecated".toList, []), (.str "ConstantValue".toList, [0, 3])], false⟩

def oldPool : Pool := [none, some (.utf8 ['x']), some (.utf8 ['I']), some (.integer 7)]

theorem oldField_has : FieldHas listEnv oldField oldPool ['x'] (.prim .int) none (some ("int".toList, ['7'])) :=
  ⟨rfl, rfl, rfl, rfl, trivial, by show getAttribute _ _ = none; decide +kernel,
    3, .integer 7, by decide, by decide +kernel, rfl, by decide +kernel⟩

/-- A deprecated field is not said to be. -/
theorem C182_full_fails : ¬ C182_full := by
  intro h
  obtain ⟨d, h1, h2⟩ := h.1 listEnv oldField oldPool [] _ _ _ _ (by decide) oldField_has
  obtain ⟨d', h3, h4⟩ := C182_field listEnv oldField oldPool [] _ _ _ _ (by decide) oldField_has
  rw [h1, Except.ok.injEq] at h3
  subst h3
  have e := (h2 "deprecated".toList).symm.trans (h4 "deprecated".toList)
  have e1 : (getAttribute oldField.attribs "Deprecated").isSome = true := by decide +kernel
  have e2 : isDeprecated oldField.attribs = false := by decide +kernel
  rw [e1, e2] at e
  exact absurd (show some (SimpleVal.flag true) = none from e) (by simp)

/-- What is said about it, in a dictionary that has another entry. -/
example : ∃ d, simplifyField listEnv oldField oldPool [(['k'], .flag false)] = .ok d ∧
    d.get? "name".toList = some (.val (.str ['x'])) ∧ d.get? "type".toList = some (.text "int".toList) ∧
    d.get? "access_flags".toList = some (.texts ["public".toList, "static".toList, "final".toList]) ∧
    d.get? "constant_value".toList = some (.const "int".toList ['7']) ∧
    d.get? "deprecated".toList = none ∧ d.get? ['k'] = some (.flag false) := by
  obtain ⟨d, h1, h2⟩ := C182_field listEnv oldField oldPool [(['k'], .flag false)] _ _ _ _ (by decide) oldField_has
  have e2 : isDeprecated oldField.attribs = false := by decide +kernel
  have e3 : oldField.words = ["public".toList, "static".toList, "final".toList] := by decide +kernel
  rw [e2, e3] at h2
  exact ⟨d, h1, h2 _, h2 _, h2 _, h2 _, h2 _, h2 _⟩

/-- The method `int f(int)` with a signature, and a Deprecated attribute that is not empty. -/
def oldMethod : Member :=
  ⟨1, 1, 2, [(.str "Signature".toList, [0, 3]), (.str "Deprecated".toList, [0])], true⟩

def oldMethodPool : Pool := [none, some (.utf8 ['f']), some (.utf8 "(I)I".toList), some (.utf8 "<T>".toList)]

theorem oldMethod_has :
    MethodHas oldMethod oldMethodPool ['f'] [.prim .int] (some (.prim .int)) (some "<T>".toList) :=
  ⟨rfl, rfl, rfl, rfl, by intro t ht; cases List.mem_singleton.1 ht; trivial, by rintro t ⟨⟩; trivial,
    3, by decide, by decide +kernel, rfl⟩

example : ∃ d, simplifyMethod listEnv oldMethod oldMethodPool [] = .ok d ∧
    d.get? "arg_types".toList = some (.texts ["int".toList]) ∧
    d.get? "signature".toList = some (.val (.str "<T>".toList)) ∧
    d.get? "deprecated".toList = some (.flag true) ∧ d.get? "constant_value".toList = none := by
  obtain ⟨d, h1, h2⟩ := C182_partial.2 listEnv oldMethod oldMethodPool [] _ _ _ _ (by decide) oldMethod_has
    (by decide +kernel)
  have e2 : (getAttribute oldMethod.attribs "Deprecated").isSome = true := by decide +kernel
  rw [e2] at h2
  exact ⟨d, h1, h2 _, h2 _, h2 _, h2 _⟩

/-- For exactly which fields the dictionary says what it should: those without an empty Deprecated attribute, and all
if the dictionary said that they are deprecated before. -/
theorem C182_exact (E : PrintEnv) (m : Member) (pool : Pool) (data : PyDict Str SimpleVal) (n : Str) (t : JType)
    (sig : Option Str) (const : Option (Str × Str)) (hl : 0 < E.lim) (h : FieldHas E m pool n t sig const) :
    (∃ d, simplifyField E m pool data = .ok d ∧ ∀ key, d.get? key =
      (memberSays n t.java m.words sig (getAttribute m.attribs "Deprecated").isSome
        ("constant_value".toList, const.map fun p => .const p.1 p.2) key).or (data.get? key)) ↔
    (getAttribute m.attribs "Deprecated" = some [] → data.get? "deprecated".toList = some (.flag true)) := by
  by_cases hd : getAttribute m.attribs "Deprecated" = some []
  · have e1 : (getAttribute m.attribs "Deprecated").isSome = true := by rw [hd]; rfl
    have e2 : isDeprecated m.attribs = false := by unfold isDeprecated truthyAttr; rw [hd]
    obtain ⟨d', h3, h4⟩ := C182_field E m pool data n t sig const hl h
    rw [e1]
    rw [e2] at h4
    constructor
    · rintro ⟨d, h1, h2⟩ -
      rw [h1, Except.ok.injEq] at h3
      subst h3
      exact ((h4 "deprecated".toList).symm.trans (h2 "deprecated".toList))
    · intro hx
      refine ⟨d', h3, fun key => (h4 key).trans ?_⟩
      by_cases e : key = "deprecated".toList
      · subst e
        exact hx hd
      · unfold memberSays
        rw [if_neg e, if_neg e]
  · exact ⟨fun _ e => absurd e hd, fun _ => C182_partial.1 E m pool data n t sig const hl h hd⟩

/-- The same for methods. -/
theorem C182_method_exact (E : PrintEnv) (m : Member) (pool : Pool) (data : PyDict Str SimpleVal) (n : Str)
    (args : List JType) (ret : Option JType) (sig : Option Str) (hl : 0 < E.lim)
    (h : MethodHas m pool n args ret sig) :
    (∃ d, simplifyMethod E m pool data = .ok d ∧ ∀ key, d.get? key =
      (memberSays n (retJava ret) m.words sig (getAttribute m.attribs "Deprecated").isSome
        ("arg_types".toList, some (.texts (args.map JType.java))) key).or (data.get? key)) ↔
    (getAttribute m.attribs "Deprecated" = some [] → data.get? "deprecated".toList = some (.flag true)) := by
  by_cases hd : getAttribute m.attribs "Deprecated" = some []
  · have e1 : (getAttribute m.attribs "Deprecated").isSome = true := by rw [hd]; rfl
    have e2 : isDeprecated m.attribs = false := by unfold isDeprecated truthyAttr; rw [hd]
    obtain ⟨d', h3, h4⟩ := C182_method E m pool data n args ret sig hl h
    rw [e1]
    rw [e2] at h4
    constructor
    · rintro ⟨d, h1, h2⟩ -
      rw [h1, Except.ok.injEq] at h3
      subst h3
      exact ((h4 "deprecated".toList).symm.trans (h2 "deprecated".toList))
    · intro hx
      refine ⟨d', h3, fun key => (h4 key).trans ?_⟩
      by_cases e : key = "deprecated".toList
      · subst e
        exact hx hd
      · unfold memberSays
        rw [if_neg e, if_neg e]
  · exact ⟨fun _ e => absurd e hd, fun _ => C182_partial.2 E m pool data n args ret sig hl h hd⟩

end Javatools
