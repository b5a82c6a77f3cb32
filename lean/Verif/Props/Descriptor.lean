import Verif.Proofs.Descriptor
import Verif.Proofs.Dict
/-
C21-C25: descriptors, member identifiers, pretty type names.
-/
namespace Javatools
open Spec

/-! ## C21 -/

/-- C21. Splitting the concatenation of field descriptors gives back the descriptors. -/
theorem C21_typeseq_inverts_concat (ts : List JType) (h : ∀ t ∈ ts, t.Names NoSemi) :
    typeseq (ts.flatMap JType.desc) = .ok (ts.map JType.desc) := typeseq_descs ts h

/-- C21. Hence descriptor sequences are uniquely readable. -/
theorem C21_concat_injective (ts us : List JType) (ht : ∀ t ∈ ts, t.Names NoSemi)
    (hu : ∀ t ∈ us, t.Names NoSemi) (h : ts.flatMap JType.desc = us.flatMap JType.desc) :
    ts.map JType.desc = us.map JType.desc := by
  have h1 := typeseq_descs ts ht
  rw [h, typeseq_descs us hu] at h1
  exact (Except.ok.inj h1).symm

example : typeseq "I[[Ljava/lang/String;[JLa;Z".toList =
    .ok ["I".toList, "[[Ljava/lang/String;".toList, "[J".toList, "La;".toList, "Z".toList] := by
  decide

/-! ## C22 -/

/-- C22. Splitting any string whatever terminates (any number of loop iterations at least the
length of the string gives the same answer, which is never "still running"). -/
theorem C22_terminates (s : Str) (fuel : Nat) (h : s.length ≤ fuel) :
    typeseqLoop fuel s = typeseq s ∧ typeseqLoop fuel s ≠ .error (.other "diverges") :=
  typeseqLoop_fuel s fuel h

/-- C22. If the split succeeds, the pieces concatenate to the input and none is empty; or the
'.' escape was met: then exactly one character, that '.', is missing, from the last piece, and
only that piece can be empty. -/
theorem C22_loses_nothing (s : Str) (ts : List Str) (h : typeseq s = .ok ts) :
    (s = ts.flatten ∧ ∀ t ∈ ts, t ≠ []) ∨
    (∃ init k rest, ts = init ++ [List.replicate k '[' ++ rest] ∧
      s = init.flatten ++ (List.replicate k '[' ++ '.' :: rest) ∧ ∀ t ∈ init, t ≠ []) :=
  typeseqLoop_ok h

/-- C22. In particular nothing is lost from text without a '.'. -/
theorem C22_loses_nothing_without_dot (s : Str) (ts : List Str) (hd : '.' ∉ s)
    (h : typeseq s = .ok ts) : ts.flatten = s ∧ ∀ t ∈ ts, t ≠ [] := by
  rcases typeseqLoop_ok h with ⟨h1, h2⟩ | ⟨init, k, rest, _, h2, _⟩
  · exact ⟨h1.symm, h2⟩
  · exfalso; apply hd; rw [h2]; simp

/-- C22. The only exceptions are Unimplemented and, for a '[' with nothing after it,
IndexError. -/
theorem C22_exceptions (s : Str) (e : PyErr) (h : typeseq s = .error e) :
    e = .unimplemented ∨ (e = .indexError ∧ ∃ a, s = a ++ ['[']) := by
  have key : ∀ fuel (s : Str), s.length ≤ fuel → typeseqLoop fuel s = .error e →
      e = .unimplemented ∨ (e = .indexError ∧ ∃ a, s = a ++ ['[']) := by
    intro fuel
    induction fuel with
    | zero =>
      intro s hs h
      have : s = [] := by cases s <;> simp_all
      subst this; simp [typeseqLoop] at h
    | succ fuel ih =>
      intro s hs h
      cases s with
      | nil => simp [typeseqLoop] at h
      | cons c s =>
        simp only [typeseqLoop] at h
        cases hn : nextArgsig (c :: s) with
        | error e' =>
          simp only [hn, bind, Except.bind, Except.error.injEq] at h
          subst h
          rcases nextArgsig_error hn with h | ⟨h, k, hk⟩
          · exact Or.inl h
          · refine Or.inr ⟨h, List.replicate (k - 1) '[', ?_⟩
            cases k with
            | zero => simp at hk
            | succ k => rw [hk, List.replicate_succ']; simp
        | ok r =>
          obtain ⟨t, s'⟩ := r
          simp only [hn, bind, Except.bind] at h
          split at h
          · simp only [Except.error.injEq] at h; exact Or.inl h.symm
          · rename_i hne
            rcases nextArgsig_ok hn with ⟨h1, h2⟩ | ⟨h1, h2, h3⟩ | ⟨k, rest, h1, h2, h3⟩
            · have hlen : s'.length ≤ fuel := by
                have e1 := congrArg List.length h2
                have h1' : 0 < t.length := List.length_pos_iff.2 h1
                simp at e1 hs; omega
              cases hl : typeseqLoop fuel s' with
              | error e' =>
                simp only [hl, Except.error.injEq] at h
                subst h
                rcases ih s' hlen hl with h | ⟨h, a, ha⟩
                · exact Or.inl h
                · exact Or.inr ⟨h, t ++ a, by rw [h2, ha]; simp⟩
              | ok ts => simp [hl] at h
            · exact absurd ⟨h2.symm, h1⟩ hne
            · subst h3
              have : typeseqLoop fuel [] = .ok [] := by cases fuel <;> rfl
              simp [this] at h
  exact key _ s (by omega) h

/-- Corrupt inputs: the one from the source comment, an unterminated class, a lone bracket. -/
example :
    typeseq "[Lcom.sun.glass.ui.EventLoop$State;.clone():java.lang.Object".toList =
      .ok ["[Lcom.sun.glass.ui.EventLoop$State;".toList, "clone():java.lang.Object".toList] ∧
    typeseq "ILFR1Xdn".toList = .error .unimplemented ∧
    typeseq "I[".toList = .error .indexError ∧ typeseq ".".toList = .ok [[]] := by decide

/-! ## C23 -/

/-- C23. The accessors of a method whose descriptor is (args)ret. -/
theorem C23_method_accessors (m : Member) (pool : Pool) (lim : Nat) (args : List JType)
    (ret : Option JType) (hm : m.isMethod = true)
    (hd : m.getDescriptor pool lim = .ok (.str (methodDesc args ret)))
    (ha : ∀ t ∈ args, t.Names fun n => ')' ∉ n ∧ ';' ∉ n)
    (hr : ∀ t, ret = some t → t.Names NoSemi) :
    m.argTypeDescriptors pool lim = .ok (args.map JType.desc) ∧
    m.typeDescriptor pool lim = .ok (retDesc ret) ∧
    m.prettyArgTypes pool lim = .ok (args.map JType.java) ∧
    m.prettyType pool lim = .ok (retJava ret) := by
  have hdesc : m.descriptor pool lim = .ok (methodDesc args ret) := by
    unfold Member.descriptor; rw [hd]; rfl
  have hts := typeseq_method args ret (fun t ht => Names.imp (fun n h => h.1) (ha t ht)) hr
  have h1 : m.argTypeDescriptors pool lim = .ok (args.map JType.desc) := by
    unfold Member.argTypeDescriptors
    rw [hm, hdesc]
    simp only [Bool.not_true, Bool.false_eq_true, if_false, bind, Except.bind, hts, firstOf,
      inner_paren]
    exact typeseq_descs args (fun t ht => Names.imp (fun n h => h.2) (ha t ht))
  have h2 : m.typeDescriptor pool lim = .ok (retDesc ret) := by
    unfold Member.typeDescriptor
    rw [hdesc]
    simp [bind, Except.bind, hts, lastOf]
  refine ⟨h1, h2, ?_, ?_⟩
  · unfold Member.prettyArgTypes
    rw [hm, h1]
    simp only [if_true, bind, Except.bind]
    exact mapM_pretty args
  · unfold Member.prettyType
    rw [h2]
    exact prettyType_ret ret

/-- C23. The accessors of a field. -/
theorem C23_field_accessors (m : Member) (pool : Pool) (lim : Nat) (t : JType)
    (hm : m.isMethod = false) (hd : m.getDescriptor pool lim = .ok (.str t.desc))
    (h : t.Names NoSemi) :
    m.argTypeDescriptors pool lim = .ok [] ∧ m.typeDescriptor pool lim = .ok t.desc ∧
    m.prettyArgTypes pool lim = .ok [] ∧ m.prettyType pool lim = .ok t.java := by
  have hdesc : m.descriptor pool lim = .ok t.desc := by
    unfold Member.descriptor; rw [hd]; rfl
  have hts := typeseq_ret (some t) (fun t' e => by cases e; exact h)
  have h2 : m.typeDescriptor pool lim = .ok t.desc := by
    unfold Member.typeDescriptor
    rw [hdesc]
    simp only [retDesc] at hts
    simp [bind, Except.bind, hts, lastOf]
  refine ⟨by simp [Member.argTypeDescriptors, hm], h2, by simp [Member.prettyArgTypes, hm], ?_⟩
  unfold Member.prettyType
  rw [h2]
  exact prettyType_desc t

/-- The hypothesis on class names matters: the JVM (not Java) allows ')' in them, and then the
argument list is cut short. -/
theorem C23_paren_in_class_name_breaks :
    ∃ (m : Member) (pool : Pool), m.isMethod = true ∧
      m.getDescriptor pool 9 = .ok (.str (methodDesc [.cls "a)b".toList] none)) ∧
      m.argTypeDescriptors pool 9 ≠ .ok ["La)b;".toList] := by
  refine ⟨⟨0, 1, 1, [], true⟩, [none, some (.utf8 "(La)b;)V".toList)], ?_⟩
  decide

example :
    let m : Member := ⟨0, 1, 2, [], true⟩
    let pool : Pool := [none, some (.utf8 "f".toList), some (.utf8 "(I[Lj/A;J)[Z".toList)]
    m.argTypeDescriptors pool 9 = .ok ["I".toList, "[Lj/A;".toList, "J".toList] ∧
    m.prettyArgTypes pool 9 = .ok ["int".toList, "j.A[]".toList, "long".toList] ∧
    m.prettyType pool 9 = .ok "boolean[]".toList := by decide

/-! ## C24 -/

theorem split_first {c : Char} {a a' b b' : Str} (ha : c ∉ a) (ha' : c ∉ a')
    (h : a ++ c :: b = a' ++ c :: b') : a = a' ∧ b = b' := by
  induction a generalizing a' with
  | nil =>
    cases a' with
    | nil => simpa using h
    | cons x a' =>
      simp only [List.nil_append, List.cons_append, List.cons.injEq] at h
      exact absurd (by rw [h.1]; simp) ha'
  | cons x a ih =>
    cases a' with
    | nil =>
      simp only [List.nil_append, List.cons_append, List.cons.injEq] at h
      exact absurd (by rw [← h.1]; simp) ha
    | cons y a' =>
      simp only [List.cons_append, List.cons.injEq] at h
      simp only [List.mem_cons, not_or] at ha ha'
      obtain ⟨h1, h2⟩ := ih ha.2 ha'.2 h.2
      exact ⟨by rw [h.1, h1], h2⟩

theorem joinWith_cons (sep x : Str) (xs : List Str) :
    joinWith sep (x :: xs) = x ++ (if xs = [] then [] else sep ++ joinWith sep xs) := by
  cases xs <;> simp [joinWith]

theorem joinWith_comma_injective (xs ys : List Str) (hx : ∀ s ∈ xs, ',' ∉ s ∧ s ≠ [])
    (hy : ∀ s ∈ ys, ',' ∉ s ∧ s ≠ []) (h : joinWith [','] xs = joinWith [','] ys) : xs = ys := by
  induction xs generalizing ys with
  | nil =>
    cases ys with
    | nil => rfl
    | cons y ys =>
      rw [joinWith_cons] at h
      have hy2 := (hy y (by simp)).2
      exact absurd (List.append_eq_nil_iff.1 h.symm).1 hy2
  | cons x xs ih =>
    cases ys with
    | nil =>
      rw [joinWith_cons] at h
      exact absurd (List.append_eq_nil_iff.1 h).1 (hx x (by simp)).2
    | cons y ys =>
      rw [joinWith_cons, joinWith_cons] at h
      have hx1 := (hx x (by simp)).1
      have hy1 := (hy y (by simp)).1
      have hx' : ∀ s ∈ xs, ',' ∉ s ∧ s ≠ [] := fun s hs => hx s (by simp [hs])
      have hy' : ∀ s ∈ ys, ',' ∉ s ∧ s ≠ [] := fun s hs => hy s (by simp [hs])
      by_cases h1 : xs = []
      · by_cases h2 : ys = []
        · simp [h1, h2] at h; simp [h, h1, h2]
        · simp only [h1, h2, if_true, if_false, List.append_nil] at h
          exact absurd (by rw [h]; simp) hx1
      · by_cases h2 : ys = []
        · simp only [h1, h2, if_true, if_false, List.append_nil] at h
          exact absurd (by rw [← h]; simp) hy1
        · simp only [h1, h2, if_false, List.cons_append, List.nil_append] at h
          obtain ⟨h3, h4⟩ := split_first hx1 hy1 h
          rw [h3, ih ys hx' hy' h4]

theorem desc_injective {t u : JType} (h : t.desc = u.desc) : t = u := by
  induction t generalizing u with
  | prim p =>
    cases u with
    | prim q => cases p <;> cases q <;> simp [JType.desc, Prim.desc] at h ⊢
    | cls n => cases p <;> simp [JType.desc, Prim.desc] at h
    | arr u => cases p <;> simp [JType.desc, Prim.desc] at h
  | cls n =>
    cases u with
    | prim q => cases q <;> simp [JType.desc, Prim.desc] at h
    | cls k => simp [JType.desc] at h; rw [h]
    | arr u => simp [JType.desc] at h
  | arr t ih =>
    cases u with
    | prim q => cases q <;> simp [JType.desc, Prim.desc] at h
    | cls k => simp [JType.desc] at h
    | arr u => simp only [JType.desc, List.cons.injEq, true_and] at h; rw [ih h]

theorem retDesc_injective {r s : Option JType} (h : retDesc r = retDesc s) : r = s := by
  cases r with
  | none =>
    cases s with
    | none => rfl
    | some t =>
      cases t with
      | prim p => cases p <;> simp [retDesc, JType.desc, Prim.desc] at h
      | cls n => simp [retDesc, JType.desc] at h
      | arr t => simp [retDesc, JType.desc] at h
  | some t =>
    cases s with
    | none =>
      cases t with
      | prim p => cases p <;> simp [retDesc, JType.desc, Prim.desc] at h
      | cls n => simp [retDesc, JType.desc] at h
      | arr t => simp [retDesc, JType.desc] at h
    | some u => rw [desc_injective h]

theorem JavaMemberName.no_paren {n : Str} (h : JavaMemberName n) : '(' ∉ n := by
  rcases h.2 with h | h | h
  · intro hm; exact absurd (h '(' hm) (by decide)
  · rw [h]; decide
  · rw [h]; decide

/-- The class names are Java names. -/
def JavaTypes (args : List JType) (ret : Option JType) : Prop :=
  (∀ t ∈ args, t.Names JavaClassName) ∧ ∀ t, ret = some t → t.Names JavaClassName

theorem JavaClassName.not_mem {n : Str} (h : JavaClassName n) {c : Char} (hc : c ∈ notIdent)
    (hs : c ≠ '/') : c ∉ n := by
  intro hm
  rcases h.chars c hm with h | h
  · exact hs h
  · exact h hc

/-- The identifier of a method, spelled out. -/
theorem identifier_method (m : Member) (pool : Pool) (lim : Nat) (n : Str) (args : List JType)
    (ret : Option JType) (hm : m.isMethod = true) (hn : m.getName pool lim = .ok (.str n))
    (hd : m.getDescriptor pool lim = .ok (.str (methodDesc args ret)))
    (hj : JavaTypes args ret) :
    m.identifier pool lim = .ok (n ++ '(' :: (joinWith [','] (args.map JType.desc) ++
      ')' :: (if m.isBridge then ':' :: methodDesc args ret else []))) := by
  have ha : ∀ t ∈ args, t.Names fun n => ')' ∉ n ∧ ';' ∉ n := fun t ht =>
    Names.imp (fun n h => ⟨JavaClassName.not_mem h (by decide) (by decide),
      JavaClassName.not_mem h (by decide) (by decide)⟩) (hj.1 t ht)
  have hr : ∀ t, ret = some t → t.Names NoSemi := fun t ht =>
    Names.imp (fun n h => JavaClassName.not_mem h (by decide) (by decide)) (hj.2 t ht)
  obtain ⟨h1, _, _, _⟩ := C23_method_accessors m pool lim args ret hm hd ha hr
  unfold Member.identifier Member.name Member.descriptor
  rw [hn, hd, h1, hm]
  simp only [if_true, bind, Except.bind, PVal.asStr]
  split <;> simp

/-- C24. Two methods (of one class or of different classes) have the same identifier exactly when
name, argument types and bridge flag agree, and for bridges the return type too. -/
theorem C24_method_identifiers (m m' : Member) (pool pool' : Pool) (lim : Nat) (n n' : Str)
    (args args' : List JType) (ret ret' : Option JType)
    (hm : m.isMethod = true) (hm' : m'.isMethod = true)
    (hn : m.getName pool lim = .ok (.str n)) (hn' : m'.getName pool' lim = .ok (.str n'))
    (hd : m.getDescriptor pool lim = .ok (.str (methodDesc args ret)))
    (hd' : m'.getDescriptor pool' lim = .ok (.str (methodDesc args' ret')))
    (hjn : JavaMemberName n) (hjn' : JavaMemberName n')
    (hj : JavaTypes args ret) (hj' : JavaTypes args' ret') :
    ∃ i i', m.identifier pool lim = .ok i ∧ m'.identifier pool' lim = .ok i' ∧
      (i = i' ↔ n = n' ∧ args = args' ∧ m.isBridge = m'.isBridge ∧
        (m.isBridge = true → ret = ret')) := by
  refine ⟨_, _, identifier_method m pool lim n args ret hm hn hd hj,
    identifier_method m' pool' lim n' args' ret' hm' hn' hd' hj', ?_⟩
  have hcomma : ∀ as : List JType, (∀ t ∈ as, t.Names JavaClassName) →
      ∀ s ∈ as.map JType.desc, ',' ∉ s ∧ s ≠ [] := by
    intro as h s hs
    obtain ⟨t, ht, rfl⟩ := List.mem_map.1 hs
    exact ⟨not_mem_desc ',' t (by decide)
      (Names.imp (fun n h => JavaClassName.not_mem h (by decide) (by decide)) (h t ht)),
      desc_ne_nil t⟩
  have hparen : ∀ as : List JType, (∀ t ∈ as, t.Names JavaClassName) →
      ')' ∉ joinWith [','] (as.map JType.desc) := by
    intro as h
    induction as with
    | nil => simp [joinWith]
    | cons t as ih =>
      rw [List.map_cons, joinWith_cons, List.mem_append, not_or]
      refine ⟨not_mem_desc ')' t (by decide)
        (Names.imp (fun n h => JavaClassName.not_mem h (by decide) (by decide)) (h t (by simp))), ?_⟩
      split
      · simp
      · simp only [List.cons_append, List.nil_append, List.mem_cons, not_or]
        exact ⟨by decide, ih (fun x hx => h x (by simp [hx]))⟩
  have hmd : ∀ (args args' : List JType) (ret ret' : Option JType), args = args' →
      methodDesc args ret = methodDesc args' ret' → ret = ret' := by
    rintro args _ ret ret' rfl h
    unfold methodDesc at h
    simp only [List.cons.injEq, true_and, List.append_cancel_left_eq] at h
    exact retDesc_injective h
  constructor
  · intro h
    obtain ⟨h1, h2⟩ := split_first (JavaMemberName.no_paren hjn) (JavaMemberName.no_paren hjn') h
    obtain ⟨h3, h4⟩ := split_first (hparen args hj.1) (hparen args' hj'.1) h2
    have h5 := joinWith_comma_injective _ _ (hcomma args hj.1) (hcomma args' hj'.1) h3
    have h6 : args = args' := by
      have : Function.Injective JType.desc := fun _ _ => desc_injective
      exact List.map_inj_right (fun _ _ h => desc_injective h) |>.1 h5
    refine ⟨h1, h6, ?_, ?_⟩
    · revert h4
      cases m.isBridge <;> cases m'.isBridge <;> simp
    · intro hb
      rw [hb] at h4
      cases hb' : m'.isBridge with
      | false => rw [hb'] at h4; simp at h4
      | true =>
        rw [hb'] at h4
        simp only [if_true, List.cons.injEq, true_and] at h4
        exact hmd _ _ _ _ h6 h4
  · rintro ⟨rfl, rfl, hb, hr⟩
    rw [← hb]
    cases hbb : m.isBridge with
    | false => rfl
    | true => rw [hr hbb]

/-- C24. Two fields have the same identifier exactly when they have the same name. -/
theorem C24_field_identifiers (m m' : Member) (pool pool' : Pool) (lim : Nat) (n n' : Str)
    (hm : m.isMethod = false) (hm' : m'.isMethod = false)
    (hn : m.getName pool lim = .ok (.str n)) (hn' : m'.getName pool' lim = .ok (.str n')) :
    ∃ i i', m.identifier pool lim = .ok i ∧ m'.identifier pool' lim = .ok i' ∧
      (i = i' ↔ n = n') := by
  refine ⟨n, n', ?_, ?_, Iff.rfl⟩
  · unfold Member.identifier Member.name; rw [hn, hm]; rfl
  · unfold Member.identifier Member.name; rw [hn', hm']; rfl

example :
    let pool : Pool := [none, some (.utf8 "f".toList), some (.utf8 "(IJ)V".toList)]
    (Member.mk 1 1 2 [] true).identifier pool 5 = .ok "f(I,J)".toList ∧
    (Member.mk 0x41 1 2 [] true).identifier pool 5 = .ok "f(I,J):(IJ)V".toList := by decide

/-! ## C25 -/

/-- C25. The pretty form of any valid descriptor is its Java source name. -/
theorem C25_pretty_is_java (t : JType) : prettyType t.desc = .ok t.java := prettyType_desc t

/-- C25. The pretty form of `V` and of an argument list. -/
theorem C25_pretty_void_and_args (args : List JType) (h : ∀ t ∈ args, t.Names NoSemi) :
    prettyType "V".toList = .ok "void".toList ∧
    prettyType ('(' :: (args.flatMap JType.desc ++ [')'])) =
      .ok ("(".toList ++ joinWith ",".toList (args.map JType.java) ++ ")".toList) :=
  ⟨rfl, prettyType_parens args h⟩

theorem java_no_bracket {t : JType} (h : t.Names JavaClassName) (ht : ∀ u, t ≠ .arr u) :
    ']' ∉ t.java := by
  cases t with
  | prim p => cases p <;> decide
  | cls n =>
    simp only [JType.java, List.mem_map, not_exists, not_and]
    intro c hc e
    split at e
    · simp at e
    · subst e; exact JavaClassName.not_mem h (by decide) (by decide) hc
  | arr u => exact absurd rfl (ht u)

theorem dotted_injective {a b : Str} (ha : '.' ∉ a) (hb : '.' ∉ b)
    (h : a.map (fun c => if c = '/' then '.' else c) = b.map (fun c => if c = '/' then '.' else c)) :
    a = b := by
  induction a generalizing b with
  | nil => cases b <;> simp_all
  | cons x a ih =>
    cases b with
    | nil => simp at h
    | cons y b =>
      simp only [List.map_cons, List.cons.injEq] at h
      simp only [List.mem_cons, not_or] at ha hb
      rw [ih ha.2 hb.2 h.2]
      congr 1
      have h1 := h.1
      by_cases hx : x = '/' <;> by_cases hy : y = '/' <;> simp [hx, hy] at h1
      · rw [hx, hy]
      · exact absurd h1 hb.1
      · exact absurd h1.symm ha.1
      · exact h1

/-- C25. Different types have different pretty names, when class names are Java names. -/
theorem C25_pretty_injective (t u : JType) (ht : t.Names JavaClassName)
    (hu : u.Names JavaClassName) (h : prettyType t.desc = prettyType u.desc) : t = u := by
  rw [prettyType_desc, prettyType_desc] at h
  replace h := Except.ok.inj h
  have hprim : ∀ (p : Prim) (n : Str), JavaClassName n →
      p.keyword ≠ n.map (fun c => if c = '/' then '.' else c) := by
    intro p n hn e
    refine hn.notPrim p (dotted_injective ?_ ?_ ?_)
    · exact JavaClassName.not_mem hn (by decide) (by decide)
    · cases p <;> decide
    · rw [← e]; cases p <;> decide
  induction t generalizing u with
  | prim p =>
    cases u with
    | prim q => cases p <;> cases q <;> first | rfl | (exact absurd h (by decide))
    | cls n => exact absurd h (hprim p n hu)
    | arr u =>
      exact absurd (by rw [h]; simp [JType.java]) (java_no_bracket (t := .prim p) ht (by simp))
  | cls n =>
    cases u with
    | prim q => exact absurd h.symm (hprim q n ht)
    | cls k =>
      rw [dotted_injective (JavaClassName.not_mem ht (by decide) (by decide))
        (JavaClassName.not_mem hu (by decide) (by decide)) h]
    | arr u =>
      exact absurd (by rw [h]; simp [JType.java]) (java_no_bracket (t := .cls n) ht (by simp))
  | arr t ih =>
    cases u with
    | prim q =>
      exact absurd (by rw [← h]; simp [JType.java]) (java_no_bracket (t := .prim q) hu (by simp))
    | cls k =>
      exact absurd (by rw [← h]; simp [JType.java]) (java_no_bracket (t := .cls k) hu (by simp))
    | arr u =>
      simp only [JType.java, List.append_cancel_right_eq] at h
      rw [ih u ht hu h]

/-- A type with two array dimensions over a packaged class, meeting the hypotheses. -/
example : (JType.arr (.arr (.cls "java/util/Map$Entry".toList))).Names JavaClassName ∧
    prettyType "[[Ljava/util/Map$Entry;".toList = .ok "java.util.Map$Entry[][]".toList := by
  refine ⟨⟨by decide, ?_, by decide⟩, by decide⟩
  intro p; cases p <;> decide

end Javatools
