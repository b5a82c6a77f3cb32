import Verif.Model.Member
import Verif.Proofs.Pool
import Verif.Props.ClassFile
import Verif.Props.Descriptor
/-
C14, C15, C16, C20, C26: flags, platform, lookup, pretty constants, provided/required symbols.
-/
namespace Javatools
open Spec

/-! ## C14 -/

/-- Java platforms, oldest first. -/
def releases : List String :=
  ["1.0.2", "1.1", "1.2", "1.3", "1.4", "1.5", "1.6", "1.7", "1.8"]

/-- Position of the platform of a class file version among the releases (JVMS 4.1-A for
45-52): 45.0-45.3 is 1.0.2, the rest of 45 is 1.1, and 45+k is 1.(k+1). -/
def releaseIndex (major minor : Nat) : Nat :=
  if major = 45 then (if minor ≤ 3 then 0 else 1) else major - 44

theorem platform_eq (major minor : Nat) :
    platformFromVersion major minor =
      if 45 ≤ major ∧ major ≤ 52 ∧ minor ≤ 65535 then releases[releaseIndex major minor]?
      else none := by
  unfold platformFromVersion
  by_cases h : 45 ≤ major ∧ major ≤ 52 ∧ minor ≤ 65535
  · rw [if_pos h]
    obtain ⟨h1, h2, h3⟩ := h
    have hm : major = 45 ∨ major = 46 ∨ major = 47 ∨ major = 48 ∨ major = 49 ∨ major = 50 ∨
        major = 51 ∨ major = 52 := by omega
    have hp : platforms.find? (inRow (major, minor)) = platforms[releaseIndex major minor]? := by
      rcases hm with rfl | rfl | rfl | rfl | rfl | rfl | rfl | rfl
      · by_cases h4 : minor ≤ 3
        · simp [platforms, releaseIndex, inRow, tupLe, List.find?_cons, h4]
        · have h5 : 4 ≤ minor := by omega
          simp [platforms, releaseIndex, inRow, tupLe, List.find?_cons, h4, h5, h3]
      all_goals simp [platforms, releaseIndex, inRow, tupLe, List.find?_cons, h3]
    rw [hp, ← List.getElem?_map]
    rfl
  · rw [if_neg h]
    have : platforms.find? (inRow (major, minor)) = none := by
      rw [List.find?_eq_none]
      intro row hrow
      simp only [platforms, List.mem_cons, List.not_mem_nil, or_false] at hrow
      rcases hrow with rfl | rfl | rfl | rfl | rfl | rfl | rfl | rfl | rfl <;>
        · simp only [inRow, tupLe, Bool.and_eq_true, decide_eq_true_eq]
          omega
    rw [this]; rfl

/-- C14. A platform is returned exactly for 45.0 - 52.65535. -/
theorem C14_total_on_known (major minor : Nat) :
    (platformFromVersion major minor).isSome ↔ 45 ≤ major ∧ major ≤ 52 ∧ minor ≤ 65535 := by
  rw [platform_eq]
  split
  · rename_i h
    simp only [h, and_self, iff_true]
    have : releaseIndex major minor < releases.length := by
      simp only [releases, List.length_cons, List.length_nil, releaseIndex]
      split
      · split <;> omega
      · omega
    rw [List.getElem?_eq_getElem this]; rfl
  · rename_i h; simp [h]

/-- C14. Which platform it is. -/
theorem C14_value (major minor : Nat) (h1 : 45 ≤ major) (h2 : major ≤ 52) (h3 : minor ≤ 65535) :
    platformFromVersion major minor = releases[releaseIndex major minor]? := by
  rw [platform_eq, if_pos ⟨h1, h2, h3⟩]

/-- C14. No version is in two rows of the table. -/
theorem C14_rows_disjoint (v : Nat × Nat) (r s : (Nat × Nat) × (Nat × Nat) × String)
    (hr : r ∈ platforms) (hs : s ∈ platforms) (h1 : inRow v r = true) (h2 : inRow v s = true) :
    r = s := by
  simp only [platforms, List.mem_cons, List.not_mem_nil, or_false] at hr hs
  rcases hr with rfl | rfl | rfl | rfl | rfl | rfl | rfl | rfl | rfl <;>
  rcases hs with rfl | rfl | rfl | rfl | rfl | rfl | rfl | rfl | rfl <;>
  first
  | rfl
  | (exfalso
     simp only [inRow, tupLe, Bool.and_eq_true, decide_eq_true_eq] at h1 h2
     omega)

/-- C14. A higher version never maps to an older platform. -/
theorem C14_monotone (v w : Nat × Nat) (p q : String)
    (hvw : v.1 < w.1 ∨ (v.1 = w.1 ∧ v.2 ≤ w.2))
    (hp : platformFromVersion v.1 v.2 = some p) (hq : platformFromVersion w.1 w.2 = some q) :
    ∃ i j : Nat, releases[i]? = some p ∧ releases[j]? = some q ∧ i ≤ j := by
  have hv := (C14_total_on_known v.1 v.2).1 (by rw [hp]; rfl)
  have hw := (C14_total_on_known w.1 w.2).1 (by rw [hq]; rfl)
  rw [C14_value _ _ hv.1 hv.2.1 hv.2.2] at hp
  rw [C14_value _ _ hw.1 hw.2.1 hw.2.2] at hq
  refine ⟨_, _, hp, hq, ?_⟩
  unfold releaseIndex
  split <;> split <;> (try split) <;> (try split) <;> omega

example : platformFromVersion 45 3 = some "1.0.2" ∧ platformFromVersion 45 4 = some "1.1" ∧
    platformFromVersion 52 65535 = some "1.8" ∧ platformFromVersion 53 0 = none ∧
    releases.Nodup := by decide

/-! ## C15 -/

theorem flag_iff (a k : Nat) : flag a (2 ^ k) = a.testBit k := by
  unfold flag
  cases h : a.testBit k with
  | true => exact decide_eq_true ((and_pow_ne_zero a k).2 h)
  | false => exact decide_eq_false (fun h' => by
      have := (and_pow_ne_zero a k).1 h'; simp [h] at this)

/-- C15. Each class predicate is the bit JVMS table 4.1-B assigns to it, whatever the other
bits. -/
theorem C15_class_bits (c : ClassInfo) :
    c.isPublic = c.access.testBit 0 ∧ c.isFinal = c.access.testBit 4 ∧
    c.isSuper = c.access.testBit 5 ∧ c.isInterface = c.access.testBit 9 ∧
    c.isAbstract = c.access.testBit 10 ∧ c.isAnnotation = c.access.testBit 13 ∧
    c.isEnum = c.access.testBit 14 :=
  ⟨flag_iff _ 0, flag_iff _ 4, flag_iff _ 5, flag_iff _ 9, flag_iff _ 10, flag_iff _ 13,
    flag_iff _ 14⟩

/-- C15. Each member predicate is the bit JVMS tables 4.5-A and 4.6-A assign to it. -/
theorem C15_member_bits (m : Member) :
    m.isPublic = m.access.testBit 0 ∧ m.isPrivate = m.access.testBit 1 ∧
    m.isProtected = m.access.testBit 2 ∧ m.isStatic = m.access.testBit 3 ∧
    m.isFinal = m.access.testBit 4 ∧ m.isSynchronized = m.access.testBit 5 ∧
    m.isVolatile = m.access.testBit 6 ∧ m.isBridge = m.access.testBit 6 ∧
    m.isTransient = m.access.testBit 7 ∧ m.isVarargs = m.access.testBit 7 ∧
    m.isNative = m.access.testBit 8 ∧ m.isAbstract = m.access.testBit 10 ∧
    m.isStrict = m.access.testBit 11 ∧ m.isEnum = m.access.testBit 14 ∧
    m.isModule = m.access.testBit 15 :=
  ⟨flag_iff _ 0, flag_iff _ 1, flag_iff _ 2, flag_iff _ 3, flag_iff _ 4, flag_iff _ 5,
    flag_iff _ 6, flag_iff _ 6, flag_iff _ 7, flag_iff _ 7, flag_iff _ 8, flag_iff _ 10,
    flag_iff _ 11, flag_iff _ 14, flag_iff _ 15⟩

/-- The keywords of a member with their bits, in the order they are listed. -/
def memberKeywords (isMethod showall : Bool) : List (String × Nat) :=
  [("public", 0), ("private", 1), ("protected", 2), ("static", 3), ("final", 4), ("strict", 11),
   ("native", 8), ("abstract", 10), ("enum", 14), ("module", 15)] ++
  (if showall then [("synthetic", 12)] else []) ++
  (if isMethod then
    [("synchronized", 5)] ++ (if showall then [("bridge", 6), ("varargs", 7)] else [])
  else [("transient", 7), ("volatile", 6)])

theorem C15_keywords_distinct (isMethod showall : Bool) :
    ((memberKeywords isMethod showall).map Prod.fst).Nodup := by
  cases isMethod <;> cases showall <;> decide

/-- C15. `pretty_access_flags` of a member: exactly the keywords whose bit is set, each once, in
the fixed order (member without a Synthetic attribute, which also counts as the flag). -/
theorem C15_member_keywords (m : Member) (showall : Bool)
    (hs : getAttribute m.attribs "Synthetic" = none) :
    m.prettyAccessFlags showall =
      ((memberKeywords m.isMethod showall).filter (fun p => m.access.testBit p.2)).map
        Prod.fst := by
  obtain ⟨h0, h1, h2, h3, h4, h5, h6, h6', h7, h7', h8, h10, h11, h14, h15⟩ := C15_member_bits m
  have h12 : m.isSynthetic = m.access.testBit 12 := by
    have := flag_iff m.access 12
    unfold flag at this
    unfold Member.isSynthetic
    rw [show (0x1000 : Nat) = 2 ^ 12 from rfl, this]
    simp [truthyAttr, hs]
  have one : ∀ (b : Bool) (s : String) (n : Nat) (r : List (String × Nat)) (a : Nat),
      (((s, n) :: r).filter (fun p => a.testBit p.2)).map Prod.fst =
        (if a.testBit n then [s] else []) ++ (r.filter (fun p => a.testBit p.2)).map Prod.fst := by
    intro b s n r a
    rw [List.filter_cons]
    cases a.testBit n <;> simp
  unfold Member.prettyAccessFlags memberKeywords
  simp only [h0, h1, h2, h3, h4, h5, h6, h6', h7, h7', h8, h10, h11, h12, h14, h15]
  cases m.isMethod <;> cases showall <;>
    simp only [List.cons_append, List.nil_append, one true, Bool.false_eq_true, if_true, if_false,
      List.filter_nil, List.map_nil, List.append_nil, Bool.true_and, Bool.false_and,
      List.append_assoc]

/-- C15. `pretty_access_flags` of a class. -/
theorem C15_class_keywords (c : ClassInfo) :
    c.prettyAccessFlags =
      (([("public", c.access.testBit 0), ("final", c.access.testBit 4),
        ("abstract", c.access.testBit 10),
        ("@interface", c.access.testBit 9 && c.access.testBit 13),
        ("interface", c.access.testBit 9 && !c.access.testBit 13),
        ("enum", c.access.testBit 14)] : List (String × Bool)).filter (fun p => p.2)).map
        Prod.fst := by
  obtain ⟨h0, h4, h5, h9, h10, h13, h14⟩ := C15_class_bits c
  unfold ClassInfo.prettyAccessFlags
  rw [h0, h4, h9, h10, h13, h14]
  cases c.access.testBit 0 <;> cases c.access.testBit 4 <;> cases c.access.testBit 9 <;>
    cases c.access.testBit 10 <;> cases c.access.testBit 13 <;> cases c.access.testBit 14 <;> rfl

example : (Member.mk 0x0119 1 2 [] true).prettyAccessFlags false =
    ["public", "static", "final", "native"] ∧
    (Member.mk 0x00C2 1 2 [] true).prettyAccessFlags true = ["private", "bridge", "varargs"] ∧
    (Member.mk 0x00C2 1 2 [] false).prettyAccessFlags false =
      ["private", "transient", "volatile"] := by decide

/-! ## C16 -/

/-- C16. `get_field_by_name`: the first field of the name; `None` exactly when there is none. -/
theorem C16_field_by_name (c : ClassInfo) (lim : Nat) (nm : Member → Str)
    (hn : ∀ f ∈ c.fields, f.getName c.pool lim = .ok (.str (nm f))) (name : Str) :
    c.getFieldByName lim name = .ok (c.fields.find? (fun f => decide (nm f = name))) := by
  unfold ClassInfo.getFieldByName
  generalize c.fields = fs at hn
  induction fs with
  | nil => rfl
  | cons f fs ih =>
    rw [fieldByName, hn f (by simp), List.find?_cons]
    simp only [bind, Except.bind, PVal.str.injEq]
    by_cases h : nm f = name
    · simp [h]
    · simp only [h, if_false, decide_false]
      exact ih (fun x hx => hn x (by simp [hx]))

/-- C16. `get_methods_by_name`: exactly the methods of the name, in order. -/
theorem C16_methods_by_name (c : ClassInfo) (lim : Nat) (nm : Member → Str)
    (hn : ∀ m ∈ c.methods, m.getName c.pool lim = .ok (.str (nm m))) (name : Str) :
    c.getMethodsByName lim name = .ok (c.methods.filter (fun m => decide (nm m = name))) := by
  unfold ClassInfo.getMethodsByName
  generalize c.methods = ms at hn
  induction ms with
  | nil => rfl
  | cons m ms ih =>
    rw [methodsByName, hn m (by simp), List.filter_cons]
    simp only [bind, Except.bind, PVal.str.injEq, ih (fun x hx => hn x (by simp [hx]))]
    by_cases h : nm m = name <;> simp [h]

/-- C16. `get_method`: the first method of that name and argument descriptors that is not a
bridge; `None` exactly when there is none. -/
theorem C16_get_method (c : ClassInfo) (lim : Nat) (nm : Member → Str) (ar : Member → List Str)
    (hn : ∀ m ∈ c.methods, m.getName c.pool lim = .ok (.str (nm m)))
    (ha : ∀ m ∈ c.methods, m.argTypeDescriptors c.pool lim = .ok (ar m))
    (name : Str) (args : List Str) :
    c.getMethod lim name args = .ok (c.methods.find? (fun m =>
      decide (nm m = name ∧ m.access.testBit 6 = false ∧ ar m = args))) := by
  unfold ClassInfo.getMethod
  generalize c.methods = ms at hn ha
  induction ms with
  | nil => rfl
  | cons m ms ih =>
    have ih' := ih (fun x hx => hn x (by simp [hx])) (fun x hx => ha x (by simp [hx]))
    rw [methodLoop, hn m (by simp), List.find?_cons]
    simp only [bind, Except.bind, PVal.str.injEq, ha m (by simp), ih']
    have hb : m.isBridge = m.access.testBit 6 := flag_iff _ 6
    rw [hb]
    by_cases h1 : nm m = name <;> cases h2 : m.access.testBit 6 <;>
      by_cases h3 : ar m = args <;> simp [h1, h3]

/-- The full claim about `get_method_bridges`, for any kind of sequence given as `arg_types`. -/
def C16_bridges_full : Prop :=
  ∀ (c : ClassInfo) (lim : Nat) (nm : Member → Str) (ar : Member → List Str),
    (∀ m ∈ c.methods, m.getName c.pool lim = .ok (.str (nm m))) →
    (∀ m ∈ c.methods, m.argTypeDescriptors c.pool lim = .ok (ar m)) →
    ∀ (name : Str) (args : PySeq) (xs : List Str), (args = .tuple xs ∨ args = .list xs) →
      c.getMethodBridges lim name args = .ok (c.methods.filter (fun m =>
        decide (nm m = name ∧ m.access.testBit 6 = true ∧ ar m = xs)))

/-- It fails for a list: unlike `get_method`, `get_method_bridges` does not convert it. -/
theorem C16_bridges_full_fails : ¬ C16_bridges_full := by
  intro h
  let pool : Pool := [none, some (.utf8 "f".toList), some (.utf8 "()V".toList)]
  let m : Member := ⟨0x40, 1, 2, [], true⟩
  have := h ⟨(52, 0), pool, 0, 0, 0, [], [], [m], []⟩ 5 (fun _ => "f".toList) (fun _ => [])
    (by decide) (by decide) "f".toList (.list []) [] (Or.inr rfl)
  exact absurd this (by decide)

/-- C16. `get_method_bridges` called with a tuple (missing: other sequence types): exactly the
bridge methods of that name and argument descriptors, in order. -/
theorem C16_get_method_bridges_partial (c : ClassInfo) (lim : Nat) (nm : Member → Str)
    (ar : Member → List Str)
    (hn : ∀ m ∈ c.methods, m.getName c.pool lim = .ok (.str (nm m)))
    (ha : ∀ m ∈ c.methods, m.argTypeDescriptors c.pool lim = .ok (ar m))
    (name : Str) (args : List Str) :
    c.getMethodBridges lim name (.tuple args) = .ok (c.methods.filter (fun m =>
      decide (nm m = name ∧ m.access.testBit 6 = true ∧ ar m = args))) := by
  unfold ClassInfo.getMethodBridges
  generalize c.methods = ms at hn ha
  induction ms with
  | nil => rfl
  | cons m ms ih =>
    have ih' := ih (fun x hx => hn x (by simp [hx])) (fun x hx => ha x (by simp [hx]))
    have hb : m.isBridge = m.access.testBit 6 := flag_iff _ 6
    rw [bridgesLoop, hn m (by simp), List.filter_cons, hb]
    simp only [bind, Except.bind, PVal.str.injEq, ha m (by simp), ih', PySeq.eqTuple]
    by_cases h1 : nm m = name <;> cases h2 : m.access.testBit 6 <;>
      by_cases h3 : args = ar m
    all_goals first
      | (subst h3; simp [h1])
      | (have h4 : ¬ ar m = args := fun e => h3 e.symm
         simp [h1, h3, h4])

/-- With a list the answer is always empty. -/
theorem C16_bridges_list_empty (c : ClassInfo) (lim : Nat) (nm : Member → Str)
    (ar : Member → List Str)
    (hn : ∀ m ∈ c.methods, m.getName c.pool lim = .ok (.str (nm m)))
    (ha : ∀ m ∈ c.methods, m.argTypeDescriptors c.pool lim = .ok (ar m))
    (name : Str) (args : List Str) :
    c.getMethodBridges lim name (.list args) = .ok [] := by
  unfold ClassInfo.getMethodBridges
  generalize c.methods = ms at hn ha
  induction ms with
  | nil => rfl
  | cons m ms ih =>
    have ih' := ih (fun x hx => hn x (by simp [hx])) (fun x hx => ha x (by simp [hx]))
    rw [bridgesLoop, hn m (by simp)]
    simp only [bind, Except.bind, PVal.str.injEq, ha m (by simp), ih', PySeq.eqTuple]
    split <;> rfl

/-- A class with a method, its bridge, and an overload. -/
example :
    let pool : Pool := [none, some (.utf8 "f".toList), some (.utf8 "()La;".toList),
      some (.utf8 "()Lb;".toList), some (.utf8 "(I)V".toList)]
    let c : ClassInfo := ⟨(52, 0), pool, 0, 0, 0, [], [],
      [⟨0x41, 1, 2, [], true⟩, ⟨1, 1, 3, [], true⟩, ⟨1, 1, 4, [], true⟩], []⟩
    c.getMethod 9 "f".toList [] = .ok (some ⟨1, 1, 3, [], true⟩) ∧
    c.getMethod 9 "f".toList ["I".toList] = .ok (some ⟨1, 1, 4, [], true⟩) ∧
    c.getMethod 9 "f".toList ["J".toList] = .ok none ∧
    c.getMethodBridges 9 "f".toList (.tuple []) = .ok [⟨0x41, 1, 2, [], true⟩] ∧
    (c.getMethodsByName 9 "f".toList).map List.length = .ok 3 := by decide

/-! ## C20 -/

/-- The type names `pretty_const` should show, by kind of constant. -/
def kindName : Const → String
  | .utf8 _ => "Utf8" | .integer _ => "int" | .float _ => "float" | .long _ => "long"
  | .double _ => "double" | .cls _ => "class" | .string _ => "String"
  | .fieldref _ _ => "Field" | .methodref _ _ => "Method"
  | .ifaceMethodref _ _ => "InterfaceMethod" | .nameAndType _ _ => "NameAndType"
  | .moduleId _ _ => "ModuleId" | .methodHandle _ _ => "MethodHandle"
  | .methodType _ => "MethodType" | .dynamic _ _ => "Dynamic"
  | .invokeDynamic _ _ => "InvokeDynamic" | .module _ => "Module" | .package _ => "Package"

def Const.isDynamic : Const → Bool
  | .dynamic _ _ => true
  | _ => false

/-- The full C20: every slot of every accepted pool can be shown. -/
def C20_full : Prop :=
  ∀ (d : Bytes) (pool : Pool), unpackPool.run d = .ok pool →
    ∀ i c, pool[i]? = some (some c) → prettyConst pool i = .ok (some (kindName c, c))

/-- It is false: a CONST_Dynamic entry (tag 17) is unpacked but cannot be shown. -/
theorem C20_full_fails : ¬ C20_full := by
  intro h
  have := h [0, 2, 17, 0, 0, 0, 1] [none, some (.dynamic 0 1)] (by decide) 1 (.dynamic 0 1) rfl
  exact absurd this (by decide)

/-- C20, exact behaviour of `pretty_const` on every slot of every pool (missing from the full
claim: CONST_Dynamic, which raises). -/
theorem C20_pretty_const_partial (pool : Pool) (i : Nat) :
    (pool[i]? = some none → prettyConst pool i = .ok none) ∧
    (∀ c, pool[i]? = some (some c) → c.isDynamic = false →
      prettyConst pool i = .ok (some (kindName c, c))) ∧
    (∀ c, pool[i]? = some (some c) → c.isDynamic = true →
      prettyConst pool i = .error .unknownTag) ∧
    (prettyConst pool i = .ok none → pool[i]? = some none) := by
  refine ⟨fun h => by simp [prettyConst, h], ?_, ?_, ?_⟩
  · intro c h hd
    cases c <;> first
      | (simp [Const.isDynamic] at hd; done)
      | simp [prettyConst, h, prettyConstTypeVal, kindName, Except.map]
  · intro c h hd
    cases c <;> first
      | (simp [Const.isDynamic] at hd; done)
      | simp [prettyConst, h, prettyConstTypeVal, Except.map]
  · intro h
    unfold prettyConst at h
    cases hp : pool[i]? with
    | none => simp [hp] at h
    | some s =>
      cases s with
      | none => rfl
      | some c => cases c <;> simp [hp, prettyConstTypeVal, Except.map] at h

/-- C20. `pretty_constants` of a pool without CONST_Dynamic lists exactly the usable slots, with
their indices, in order. -/
theorem C20_pretty_constants_partial (pool : Pool)
    (h : ∀ c, some c ∈ pool → c.isDynamic = false) :
    ∃ l, prettyConstants pool = .ok l ∧
      (∀ i k c, (i, k, c) ∈ l ↔ (1 ≤ i ∧ pool[i]? = some (some c) ∧ k = kindName c)) ∧
      (l.map Prod.fst).Pairwise (· < ·) := by
  have key : ∀ (rest : Pool) (n : Nat), (∀ c, some c ∈ rest → c.isDynamic = false) →
      ∃ l, prettyConstantsFrom n rest = .ok l ∧
        (∀ i k c, (i, k, c) ∈ l ↔ (∃ j, i = n + j ∧ rest[j]? = some (some c) ∧ k = kindName c)) ∧
        (l.map Prod.fst).Pairwise (· < ·) ∧ ∀ x ∈ l, n ≤ x.1 := by
    intro rest
    induction rest with
    | nil => intro n _; exact ⟨[], rfl, by simp, by simp, by simp⟩
    | cons s rest ih =>
      intro n hn
      obtain ⟨l, h1, h2, h3, h4⟩ := ih (n + 1) (fun c hc => hn c (by simp [hc]))
      cases s with
      | none =>
        refine ⟨l, by rw [prettyConstantsFrom, h1], ?_, h3, fun x hx => by
          have := h4 x hx; omega⟩
        intro i k c
        rw [h2]
        constructor
        · rintro ⟨j, rfl, hj, hk⟩; exact ⟨j + 1, by omega, by simpa using hj, hk⟩
        · rintro ⟨j, rfl, hj, hk⟩
          cases j with
          | zero => simp at hj
          | succ j => exact ⟨j, by omega, by simpa using hj, hk⟩
      | some c =>
        have hp : prettyConstTypeVal c = .ok (kindName c, c) := by
          have := hn c (by simp)
          cases c <;> first
            | (simp [Const.isDynamic] at this; done)
            | rfl
        refine ⟨(n, kindName c, c) :: l, ?_, ?_, ?_, ?_⟩
        · rw [prettyConstantsFrom, hp, h1]; rfl
        · intro i k c'
          rw [List.mem_cons, h2]
          constructor
          · rintro (h | ⟨j, rfl, hj, hk⟩)
            · simp only [Prod.mk.injEq] at h
              obtain ⟨rfl, rfl, rfl⟩ := h
              exact ⟨0, rfl, by simp, rfl⟩
            · exact ⟨j + 1, by omega, by simpa using hj, hk⟩
          · rintro ⟨j, rfl, hj, hk⟩
            cases j with
            | zero =>
              left
              simp only [List.getElem?_cons_zero, Option.some.injEq] at hj
              subst hj; subst hk; rfl
            | succ j => right; exact ⟨j, by omega, by simpa using hj, hk⟩
        · simp only [List.map_cons, List.pairwise_cons, h3, and_true]
          intro a ha
          obtain ⟨x, hx, rfl⟩ := List.mem_map.1 ha
          have := h4 x hx; omega
        · intro x hx
          rcases List.mem_cons.1 hx with rfl | hx
          · exact Nat.le_refl _
          · have := h4 x hx; omega
  obtain ⟨l, h1, h2, h3, _⟩ := key (pool.drop 1) 1 (fun c hc => h c (List.mem_of_mem_drop hc))
  refine ⟨l, h1, ?_, h3⟩
  intro i k c
  rw [h2]
  constructor
  · rintro ⟨j, rfl, hj, hk⟩
    exact ⟨by omega, by rw [← hj, List.getElem?_drop], hk⟩
  · rintro ⟨hi, hc, hk⟩
    exact ⟨i - 1, by omega, by rw [List.getElem?_drop, ← hc]; congr 1; omega, hk⟩

example : prettyConstants [none, some (.long 3), none, some (.cls 1)] =
    .ok [(1, "long", .long 3), (3, "class", .cls 1)] := by decide

/-! ## C26 -/

section
variable (glob : Str → Str → Bool) (c : ClassInfo) (lim : Nat)

/-- What the caches can hold after any history. -/
def CacheOK (st : ApiCache) : Prop :=
  (∀ s, st.provides = some s → ∃ l, c.providesSeq lim false = .ok l ∧ s = l.eraseDups) ∧
  (∀ s, st.providesPrivate = some s → ∃ l, c.providesSeq lim true = .ok l ∧ s = l.eraseDups) ∧
  (∀ s, st.requires = some s → ∃ l r, c.providesSeq lim true = .ok l ∧
    requiresLoop c.pool lim l.eraseDups 1 (c.pool.drop 1) = .ok r ∧ s = r.eraseDups)

theorem finish_nil (s : List Str) : s.filter (fun p => !fnmatchesWith glob p []) = s := by
  simp [fnmatchesWith]

theorem getProvides_ok (st : ApiCache) (h : CacheOK c lim st) (ig : List Str) (p : Bool) :
    (getProvides glob c lim ig p st).1 =
      (c.providesSeq lim p).map (fun l => l.eraseDups.filter fun x => !fnmatchesWith glob x ig) ∧
    CacheOK c lim (getProvides glob c lim ig p st).2 := by
  unfold getProvides
  cases p with
  | true =>
    simp only [if_true]
    cases hc : st.providesPrivate with
    | some s =>
      obtain ⟨l, h1, h2⟩ := h.2.1 s hc
      simp only [h1, h2, Except.map]
      exact ⟨trivial, h⟩
    | none =>
      cases hs : c.providesSeq lim true with
      | error e => exact ⟨rfl, h⟩
      | ok l =>
        refine ⟨rfl, h.1, ?_, h.2.2⟩
        intro s hs'
        exact ⟨l, hs, (Option.some.inj hs').symm⟩
  | false =>
    simp only [Bool.false_eq_true, if_false]
    cases hc : st.provides with
    | some s =>
      obtain ⟨l, h1, h2⟩ := h.1 s hc
      simp only [h1, h2, Except.map]
      exact ⟨trivial, h⟩
    | none =>
      cases hs : c.providesSeq lim false with
      | error e => exact ⟨rfl, h⟩
      | ok l =>
        refine ⟨rfl, ?_, h.2.1, h.2.2⟩
        intro s hs'
        exact ⟨l, hs, (Option.some.inj hs').symm⟩

/-- The value `get_requires` computes, as a function of the class alone. -/
def requiresValue (ig : List Str) : Res (List Str) := do
  let l ← c.providesSeq lim true
  let r ← requiresLoop c.pool lim l.eraseDups 1 (c.pool.drop 1)
  .ok (r.eraseDups.filter fun x => !fnmatchesWith glob x ig)

theorem getRequires_ok (st : ApiCache) (h : CacheOK c lim st) (ig : List Str) :
    (getRequires glob c lim ig st).1 = requiresValue glob c lim ig ∧
    CacheOK c lim (getRequires glob c lim ig st).2 := by
  unfold getRequires requiresValue
  cases hc : st.requires with
  | some s =>
    obtain ⟨l, r, h1, h2, h3⟩ := h.2.2 s hc
    simp only [h1, h2, h3, bind, Except.bind]
    exact ⟨trivial, h⟩
  | none =>
    obtain ⟨h1, h2⟩ := getProvides_ok glob c lim st h [] true
    cases hp : getProvides glob c lim [] true st with
    | mk res st' =>
      rw [hp] at h1 h2
      simp only at h1 h2
      cases hs : c.providesSeq lim true with
      | error e =>
        rw [hs] at h1; simp only [Except.map] at h1; subst h1
        simp only [bind, Except.bind]
        exact ⟨trivial, h2⟩
      | ok l =>
        rw [hs] at h1; simp only [Except.map, finish_nil] at h1; subst h1
        simp only [bind, Except.bind]
        cases hr : requiresLoop c.pool lim l.eraseDups 1 (c.pool.drop 1) with
        | error e => exact ⟨rfl, h2⟩
        | ok r =>
          refine ⟨rfl, h2.1, h2.2.1, ?_⟩
          intro s hs'
          exact ⟨l, r, hs, hr, (Option.some.inj hs').symm⟩

theorem cacheOK_run (calls : List ApiCall) (st : ApiCache) (h : CacheOK c lim st) :
    CacheOK c lim (apiRun glob c lim st calls) := by
  induction calls generalizing st with
  | nil => exact h
  | cons call calls ih =>
    refine ih _ ?_
    cases call with
    | provides ig p => exact (getProvides_ok glob c lim st h ig p).2
    | requires ig => exact (getRequires_ok glob c lim st h ig).2

theorem cacheOK_empty : CacheOK c lim .empty := by
  refine ⟨?_, ?_, ?_⟩ <;> intro s h <;> simp [ApiCache.empty] at h

/-- C26. No accessor's result depends on which accessors were called earlier. -/
theorem C26_history_independent (calls calls' : List ApiCall) (call : ApiCall) :
    (apiStep glob c lim (apiRun glob c lim .empty calls) call).1 =
    (apiStep glob c lim (apiRun glob c lim .empty calls') call).1 := by
  have h := cacheOK_run glob c lim calls _ (cacheOK_empty c lim)
  have h' := cacheOK_run glob c lim calls' _ (cacheOK_empty c lim)
  cases call with
  | provides ig p =>
    simp only [apiStep]
    rw [(getProvides_ok glob c lim _ h ig p).1, (getProvides_ok glob c lim _ h' ig p).1]
  | requires ig =>
    simp only [apiStep]
    rw [(getRequires_ok glob c lim _ h ig).1, (getRequires_ok glob c lim _ h' ig).1]

theorem requiresLoop_not_provided {pool : Pool} {provided : List Str} {rest : Pool} {i : Nat}
    {l : List Str} (h : requiresLoop pool lim provided i rest = .ok l) :
    ∀ s ∈ l, s ∉ provided ∧ s ≠ [] := by
  induction rest generalizing i l with
  | nil => simp only [requiresLoop, Except.ok.injEq] at h; subst h; simp
  | cons x rest ih =>
    cases x with
    | none => exact ih h
    | some k =>
      simp only [requiresLoop, bind, Except.bind] at h
      split at h
      · simp at h
      · split at h
        · split at h
          · simp at h
          · split at h
            · simp at h
            · rename_i more hmore
              split at h
              · simp only [Except.ok.injEq] at h
                subst h
                intro s hs
                split at hs
                · rename_i hc
                  rcases List.mem_cons.1 hs with rfl | hs
                  · exact ⟨hc.2, hc.1⟩
                  · exact ih hmore s hs
                · exact ih hmore s hs
              · simp only [Except.ok.injEq] at h
                subst h
                exact ih hmore
        · exact ih h

/-- C26. Whatever was called before, nothing `get_requires` lists is provided by the class itself,
not even privately. -/
theorem C26_requires_not_provided (calls calls' : List ApiCall) (ig : List Str)
    (rs ps : List Str)
    (hr : (getRequires glob c lim ig (apiRun glob c lim .empty calls)).1 = .ok rs)
    (hp : (getProvides glob c lim [] true (apiRun glob c lim .empty calls')).1 = .ok ps) :
    ∀ s ∈ rs, s ∉ ps := by
  have h := cacheOK_run glob c lim calls _ (cacheOK_empty c lim)
  have h' := cacheOK_run glob c lim calls' _ (cacheOK_empty c lim)
  rw [(getRequires_ok glob c lim _ h ig).1] at hr
  rw [(getProvides_ok glob c lim _ h' [] true).1] at hp
  cases hs : c.providesSeq lim true with
  | error e => rw [hs] at hp; simp [Except.map] at hp
  | ok l =>
    rw [hs] at hp
    simp only [Except.map, finish_nil, Except.ok.injEq] at hp
    subst hp
    unfold requiresValue at hr
    rw [hs] at hr
    simp only [bind, Except.bind] at hr
    split at hr
    · simp at hr
    · rename_i r hr'
      simp only [Except.ok.injEq] at hr
      subst hr
      intro s hs
      have hs' := List.mem_eraseDups.1 (List.mem_filter.1 hs).1
      exact (requiresLoop_not_provided lim hr' s hs').1

/-- C26. The public symbols are among the private ones. -/
theorem C26_public_subset_private (calls calls' : List ApiCall) (ig : List Str)
    (pub priv : List Str)
    (h1 : (getProvides glob c lim ig false (apiRun glob c lim .empty calls)).1 = .ok pub)
    (h2 : (getProvides glob c lim ig true (apiRun glob c lim .empty calls')).1 = .ok priv) :
    ∀ s ∈ pub, s ∈ priv := by
  rw [(getProvides_ok glob c lim _ (cacheOK_run glob c lim calls _ (cacheOK_empty c lim)) _ _).1]
    at h1
  rw [(getProvides_ok glob c lim _ (cacheOK_run glob c lim calls' _ (cacheOK_empty c lim)) _ _).1]
    at h2
  have sub : ∀ (f : Member → Res Str) (ms : List Member) (p : Member → Bool) (a b : List Str),
      (ms.filter p).mapM f = .ok a → ms.mapM f = .ok b → ∀ x ∈ a, x ∈ b := by
    intro f ms p
    induction ms with
    | nil =>
      intro a b ha hb x hx
      simp only [List.filter_nil, List.mapM_nil, pure, Except.pure, Except.ok.injEq] at ha
      subst ha; simp at hx
    | cons m ms ih =>
      intro a b ha hb x hx
      simp only [List.mapM_cons, bind, Except.bind] at hb
      split at hb
      · simp at hb
      · rename_i y hy
        split at hb
        · simp at hb
        · rename_i ys hys
          simp only [pure, Except.pure, Except.ok.injEq] at hb
          subst hb
          rw [List.filter_cons] at ha
          split at ha
          · simp only [List.mapM_cons, bind, Except.bind, hy] at ha
            split at ha
            · simp at ha
            · rename_i zs hzs
              simp only [pure, Except.pure, Except.ok.injEq] at ha
              subst ha
              rcases List.mem_cons.1 hx with rfl | hx
              · simp
              · exact List.mem_cons_of_mem _ (ih zs ys hzs hys x hx)
          · exact List.mem_cons_of_mem _ (ih a ys ha hys x hx)
  have key : ∀ a b, c.providesSeq lim false = .ok a → c.providesSeq lim true = .ok b →
      ∀ x ∈ a, x ∈ b := by
    intro a b ha hb x hx
    unfold ClassInfo.providesSeq at ha hb
    simp only [bind, Except.bind] at ha hb
    split at ha
    · simp at ha
    · rename_i v hv
      rw [hv] at hb
      simp only at hb
      split at ha
      · simp at ha
      · rename_i me hme
        rw [hme] at hb
        simp only [Bool.true_or] at hb
        have ft : ∀ l : List Member, l.filter (fun _ => true) = l := fun l => by simp
        rw [ft, ft] at hb
        split at ha
        · simp at ha
        · rename_i fa hfa
          split at ha
          · simp at ha
          · rename_i ma hma
            split at hb
            · simp at hb
            · rename_i fb hfb
              split at hb
              · simp at hb
              · rename_i mb hmb
                simp only [Except.ok.injEq] at ha hb
                subst ha; subst hb
                simp only [List.mem_cons, List.mem_map, List.mem_append] at hx ⊢
                rcases hx with rfl | ⟨y, hy | hy, rfl⟩
                · exact Or.inl rfl
                · exact Or.inr ⟨y, Or.inl (sub _ _ _ _ _ hfa hfb y hy), rfl⟩
                · exact Or.inr ⟨y, Or.inr (sub _ _ _ _ _ hma hmb y hy), rfl⟩
  cases ha : c.providesSeq lim false with
  | error e => rw [ha] at h1; simp [Except.map] at h1
  | ok a =>
    cases hb : c.providesSeq lim true with
    | error e => rw [hb] at h2; simp [Except.map] at h2
    | ok b =>
      rw [ha] at h1; rw [hb] at h2
      simp only [Except.map, Except.ok.injEq] at h1 h2
      subst h1; subst h2
      intro s hs
      rw [List.mem_filter, List.mem_eraseDups] at hs ⊢
      exact ⟨key a b ha hb s hs.1, hs.2⟩

/-- C26. The ignore list removes exactly the symbols matching one of its non-empty globs. -/
theorem C26_ignored_exactly (calls calls' : List ApiCall) (ig : List Str) (p : Bool) :
    (∀ all, (getProvides glob c lim [] p (apiRun glob c lim .empty calls)).1 = .ok all →
      ∃ l, (getProvides glob c lim ig p (apiRun glob c lim .empty calls')).1 = .ok l ∧
        ∀ s, s ∈ l ↔ s ∈ all ∧ ∀ g ∈ ig, g ≠ [] → glob s g = false) ∧
    (∀ all, (getRequires glob c lim [] (apiRun glob c lim .empty calls)).1 = .ok all →
      ∃ l, (getRequires glob c lim ig (apiRun glob c lim .empty calls')).1 = .ok l ∧
        ∀ s, s ∈ l ↔ s ∈ all ∧ ∀ g ∈ ig, g ≠ [] → glob s g = false) := by
  have h := cacheOK_run glob c lim calls _ (cacheOK_empty c lim)
  have h' := cacheOK_run glob c lim calls' _ (cacheOK_empty c lim)
  have hf : ∀ (x : List Str) (s : Str),
      s ∈ x.filter (fun q => !fnmatchesWith glob q ig) ↔
        s ∈ x ∧ ∀ g ∈ ig, g ≠ [] → glob s g = false := by
    intro x s
    rw [List.mem_filter]
    simp [fnmatchesWith]
  constructor
  · intro all hall
    rw [(getProvides_ok glob c lim _ h [] p).1] at hall
    rw [(getProvides_ok glob c lim _ h' ig p).1]
    cases hs : c.providesSeq lim p with
    | error e => rw [hs] at hall; simp [Except.map] at hall
    | ok l =>
      rw [hs] at hall
      simp only [Except.map, finish_nil, Except.ok.injEq] at hall
      subst hall
      exact ⟨_, rfl, hf _⟩
  · intro all hall
    rw [(getRequires_ok glob c lim _ h []).1] at hall
    rw [(getRequires_ok glob c lim _ h' ig).1]
    unfold requiresValue at *
    cases hs : c.providesSeq lim true with
    | error e => rw [hs] at hall; simp [bind, Except.bind] at hall
    | ok l =>
      rw [hs] at hall
      simp only [bind, Except.bind, finish_nil] at hall ⊢
      cases hr : requiresLoop c.pool lim l.eraseDups 1 (c.pool.drop 1) with
      | error e => rw [hr] at hall; simp at hall
      | ok r =>
        rw [hr] at hall
        simp only [Except.ok.injEq] at hall
        subst hall
        exact ⟨_, rfl, hf _⟩

end

/-- C26. Completeness: every class or member constant contributes its symbol to `get_requires`
unless the class provides it. -/
theorem C26_requires_complete (glob : Str → Str → Bool) (c : ClassInfo) (lim : Nat)
    (calls : List ApiCall) (rs : List Str)
    (hr : (getRequires glob c lim [] (apiRun glob c lim .empty calls)).1 = .ok rs) (i : Nat)
    (k : Const) (hi : 1 ≤ i) (hk : c.pool[i]? = some (some k)) (ha : k.isApi = true) :
    ∃ o, apiSymbol c.pool lim k = .ok o ∧
      ∀ s, o = some s → s ≠ [] → s ∈ rs ∨
        ∃ ps, (getProvides glob c lim [] true .empty).1 = .ok ps ∧ s ∈ ps := by
  rw [(getRequires_ok glob c lim _ (cacheOK_run glob c lim calls _ (cacheOK_empty c lim)) []).1] at hr
  rw [(getProvides_ok glob c lim _ (cacheOK_empty c lim) [] true).1]
  unfold requiresValue at hr
  cases hs : c.providesSeq lim true with
  | error e => rw [hs] at hr; simp [bind, Except.bind] at hr
  | ok l =>
    rw [hs] at hr
    simp only [bind, Except.bind, finish_nil, Except.map] at hr ⊢
    cases hl : requiresLoop c.pool lim l.eraseDups 1 (c.pool.drop 1) with
    | error e => rw [hl] at hr; simp at hr
    | ok r =>
      rw [hl] at hr
      simp only [Except.ok.injEq] at hr
      have key : ∀ (rest : Pool) (n : Nat) (r : List Str),
          requiresLoop c.pool lim l.eraseDups n rest = .ok r → some k ∈ rest →
          ∃ o, apiSymbol c.pool lim k = .ok o ∧
            ∀ s, o = some s → s ≠ [] → s ∈ r ∨ s ∈ l.eraseDups := by
        intro rest
        induction rest with
        | nil => intro n r _ hm; simp at hm
        | cons x rest ih =>
          intro n r hreq hm
          cases x with
          | none =>
            exact ih _ _ hreq (by simpa using hm)
          | some k' =>
            simp only [requiresLoop, bind, Except.bind] at hreq
            split at hreq
            · simp at hreq
            · split at hreq
              · split at hreq
                · simp at hreq
                · rename_i pv hpv
                  split at hreq
                  · simp at hreq
                  · rename_i more hmore
                    have sub : ∀ s, s ∈ more → s ∈ r := by
                      intro s hs
                      split at hreq
                      · simp only [Except.ok.injEq] at hreq
                        rw [← hreq]
                        split
                        · exact List.mem_cons_of_mem _ hs
                        · exact hs
                      · simp only [Except.ok.injEq] at hreq
                        rw [← hreq]; exact hs
                    rcases List.mem_cons.1 hm with h | h
                    · obtain rfl := Option.some.inj h
                      refine ⟨pv, hpv, ?_⟩
                      rintro s rfl hne
                      simp only [Except.ok.injEq] at hreq
                      rw [← hreq]
                      by_cases hin : s ∈ l.eraseDups
                      · exact Or.inr hin
                      · left; rw [if_pos ⟨hne, hin⟩]; simp
                    · obtain ⟨o, h1, h2⟩ := ih _ _ hmore h
                      refine ⟨o, h1, ?_⟩
                      intro s hs hne
                      rcases h2 s hs hne with h | h
                      · exact Or.inl (sub s h)
                      · exact Or.inr h
              · rename_i hnot
                rcases List.mem_cons.1 hm with h | h
                · obtain rfl := Option.some.inj h
                  exact absurd ha hnot
                · exact ih _ _ hreq h
      have hmem : some k ∈ c.pool.drop 1 := by
        rw [List.mem_iff_getElem?]
        exact ⟨i - 1, by rw [List.getElem?_drop, ← hk]; congr 1; omega⟩
      obtain ⟨o, h1, h2⟩ := key _ _ _ hl hmem
      refine ⟨o, h1, ?_⟩
      intro s hs' hne
      rcases h2 s hs' hne with h | h
      · left; rw [← hr]; exact List.mem_eraseDups.2 h
      · right; exact ⟨_, rfl, h⟩

/-- C26. What the symbol of a well-typed constant is. -/
theorem C26_symbol_of_method (pool : Pool) (h0 : pool[0]? = some none) (a b : Nat)
    (cn n : Str) (args : List JType) (ret : Option JType) (lim : Nat)
    (hc : ClassAt pool a cn) (hn : NameTypeAt pool b n (methodDesc args ret))
    (hj : JavaTypes args ret) (hcn : cn ≠ []) (hbr : cn.head? ≠ some '[') :
    apiSymbol pool (lim + 2) (.methodref a b) = .ok (some
      (prettyClass cn ++ ".".toList ++ n ++
        ("(".toList ++ joinWith ",".toList (args.map JType.java) ++ ")".toList) ++
        ":".toList ++ retJava ret)) := by
  have hp := prettyTypeseq_method args ret
    (fun t ht => Names.imp (fun n h => ⟨JavaClassName.not_mem h (by decide) (by decide),
      JavaClassName.not_mem h (by decide) (by decide)⟩) (hj.1 t ht))
    (fun t ht => Names.imp (fun n h => JavaClassName.not_mem h (by decide) (by decide)) (hj.2 t ht))
  unfold apiSymbol prettyDerefApi
  simp only [deref_ClassAt h0 hc lim, deref_NameTypeAt h0 hn lim, bind, Except.bind, PVal.asStr,
    PVal.asPair, hp]
  cases cn with
  | nil => exact absurd rfl hcn
  | cons x cn =>
    have hx : (if x = '/' then '.' else x) ≠ '[' := by
      split
      · decide
      · intro e; subst e; simp at hbr
    simp only [prettyClass, List.map_cons, List.cons_append]
    split
    · simp_all
    · rename_i h; simp only [List.cons.injEq] at h; exact absurd h.1 hx
    · rfl

/-- C26. What is provided: the class and exactly its (public, or all) fields and methods. -/
theorem C26_provides_content (glob : Str → Str → Bool) (c : ClassInfo) (lim : Nat)
    (calls : List ApiCall) (p : Bool) (me : Str) (ident : Member → Str)
    (hme : c.getThis lim = .ok (.str me))
    (hid : ∀ m ∈ c.fields ++ c.methods, m.prettyIdentifier c.pool lim = .ok (ident m)) :
    ∃ ps, (getProvides glob c lim [] p (apiRun glob c lim .empty calls)).1 = .ok ps ∧
      ∀ s, s ∈ ps ↔ s = prettyClass me ∨ ∃ m ∈ c.fields ++ c.methods,
        (p = true ∨ m.access.testBit 0 = true) ∧ s = prettyClass me ++ ".".toList ++ ident m := by
  rw [(getProvides_ok glob c lim _ (cacheOK_run glob c lim calls _ (cacheOK_empty c lim)) [] p).1]
  have hm : ∀ (ms : List Member), (∀ m ∈ ms, m.prettyIdentifier c.pool lim = .ok (ident m)) →
      ms.mapM (fun f => f.prettyIdentifier c.pool lim) = .ok (ms.map ident) :=
    fun ms h => mapM_ok _ _ ms h
  have hl : c.providesSeq lim p = .ok (prettyClass me ::
      (((c.fields.filter fun m => p || m.isPublic).map ident ++
        (c.methods.filter fun m => p || m.isPublic).map ident).map
          fun i => prettyClass me ++ ".".toList ++ i)) := by
    unfold ClassInfo.providesSeq
    rw [hme]
    simp only [bind, Except.bind, PVal.asStr]
    rw [hm _ (fun m h => hid m (by simp [(List.mem_filter.1 h).1])),
      hm _ (fun m h => hid m (by simp [(List.mem_filter.1 h).1]))]
  rw [hl]
  simp only [Except.map, finish_nil]
  refine ⟨_, rfl, ?_⟩
  · intro s
    rw [List.mem_eraseDups, List.mem_cons]
    have hb : ∀ m : Member, m.isPublic = m.access.testBit 0 := fun m => flag_iff _ 0
    simp only [List.mem_map, List.mem_append, List.mem_filter, hb, Bool.or_eq_true]
    constructor
    · rintro (h | ⟨i, ⟨m, ⟨h1, h2⟩, rfl⟩ | ⟨m, ⟨h1, h2⟩, rfl⟩, rfl⟩)
      · exact Or.inl h
      · exact Or.inr ⟨m, Or.inl h1, h2, rfl⟩
      · exact Or.inr ⟨m, Or.inr h1, h2, rfl⟩
    · rintro (h | ⟨m, h1 | h1, h2, rfl⟩)
      · exact Or.inl h
      · exact Or.inr ⟨ident m, Or.inl ⟨m, ⟨h1, h2⟩, rfl⟩, rfl⟩
      · exact Or.inr ⟨ident m, Or.inr ⟨m, ⟨h1, h2⟩, rfl⟩, rfl⟩

/-- A class that uses its own method, another class's method and an array class. -/
example :
    let pool : Pool := [none, some (.utf8 "C".toList), some (.cls 1), some (.utf8 "f".toList),
      some (.utf8 "()V".toList), some (.nameAndType 3 4), some (.methodref 2 5),
      some (.utf8 "a/D".toList), some (.cls 7), some (.methodref 8 5),
      some (.utf8 "[Lx/Y;".toList), some (.cls 10)]
    let c : ClassInfo := ⟨(52, 0), pool, 0x21, 2, 0, [], [], [⟨2, 3, 4, [], true⟩], []⟩
    let g : Str → Str → Bool := fun _ _ => false
    (getRequires g c 9 [] .empty).1 =
      .ok ["a.D".toList, "a.D.f():void".toList, "x.Y".toList] ∧
    (getProvides g c 9 [] false .empty).1 = .ok ["C".toList] ∧
    (getProvides g c 9 [] true .empty).1 = .ok ["C".toList, "C.f():void".toList] := by
  decide

end Javatools
