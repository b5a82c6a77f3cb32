import Verif.Props.ClassInfoCli
import Verif.Props.Descriptor
/-
C103, C104: the declarations of members and classes as the classinfo tool shows them.
-/
namespace Javatools
open Spec

/-! ## C103 -/

/-- Words with single blanks between them. -/
def words (ws : List Str) : Str := joinWith " ".toList ws

/-- The declaration of a method: keywords, type (none for a constructor), name with the argument
types, exceptions. -/
def methodDecl (kw : List Str) (n : Str) (args : List JType) (ret : Option JType) (exs : List Str) :
    Str :=
  words (kw ++ (if n = "<init>".toList then [] else [retJava ret]) ++
    [n ++ "(".toList ++ joinWith ",".toList (args.map JType.java) ++ ")".toList] ++
    (if exs = [] then [] else ["throws".toList, joinWith ",".toList (exs.map prettyClass)]))

/-- The declaration of a field. -/
def fieldDecl (kw : List Str) (n : Str) (t : JType) : Str := words (kw ++ [t.java, n])

theorem joinWith_append (sep : Str) (xs ys : List Str) (hx : xs ≠ []) (hy : ys ≠ []) :
    joinWith sep (xs ++ ys) = joinWith sep xs ++ sep ++ joinWith sep ys := by
  induction xs with
  | nil => exact absurd rfl hx
  | cons x xs ih =>
    cases xs with
    | nil =>
      cases ys with
      | nil => exact absurd rfl hy
      | cons y ys => rfl
    | cons z xs =>
      have := ih (by simp)
      simp only [List.cons_append] at this ⊢
      rw [joinWith, this, joinWith]
      simp

theorem joinWith_ne_nil {sep : Str} {xs : List Str} (hx : xs ≠ []) (h : ∀ x ∈ xs, x ≠ []) :
    joinWith sep xs ≠ [] := by
  cases xs with
  | nil => exact absurd rfl hx
  | cons x xs =>
    rw [joinWith_cons]
    have := h x (by simp)
    split <;> simp [this]

/-- A phrase of words followed by words. -/
theorem words_join (kw rest : List Str) (hk : ∀ w ∈ kw, w ≠ []) (hr : rest ≠ []) :
    words ((if (words kw).isEmpty then [] else [words kw]) ++ rest) = words (kw ++ rest) := by
  unfold words
  cases kw with
  | nil => simp [joinWith]
  | cons k kw =>
    have h1 : joinWith " ".toList (k :: kw) ≠ [] := joinWith_ne_nil (by simp) hk
    have h2 : (joinWith " ".toList (k :: kw)).isEmpty = false := by
      cases h : joinWith " ".toList (k :: kw) with
      | nil => exact absurd h h1
      | cons a b => rfl
    rw [h2]
    simp only [Bool.false_eq_true, if_false]
    rw [joinWith_append _ [_] _ (by simp) hr, joinWith_append _ _ _ (by simp) hr]
    rfl

theorem words_tail (xs : List Str) (a b : Str) (h : xs ≠ []) :
    words (xs ++ [a ++ " ".toList ++ b]) = words (xs ++ [a, b]) := by
  unfold words
  rw [joinWith_append _ _ _ h (by simp), joinWith_append _ _ _ h (by simp)]
  simp [joinWith]

/-- The phrases of a declaration, without the empty ones. -/
theorem decl_join (kw : List Str) (p nm t : Str) (hk : ∀ w ∈ kw, w ≠ []) (hnm : nm ≠ []) :
    joinWith " ".toList ([words kw, p, nm, t].filter fun z => !z.isEmpty) =
      words (kw ++ (if p = [] then [] else [p]) ++ [nm] ++ (if t = [] then [] else [t])) := by
  have first : [words kw, p, nm, t].filter (fun z => !z.isEmpty) =
      (if (words kw).isEmpty then [] else [words kw]) ++
        ((if p = [] then [] else [p]) ++ [nm] ++ (if t = [] then [] else [t])) := by
    generalize words kw = k
    cases k <;> cases p <;> cases nm <;> cases t <;> simp at hnm ⊢
  rw [first]
  have := words_join kw ((if p = [] then [] else [p]) ++ [nm] ++ (if t = [] then [] else [t])) hk
    (by simp)
  simp only [List.append_assoc] at this ⊢
  exact this

/-- The keywords of a member, see C15. -/
def Member.kw (m : Member) : List Str := (m.prettyAccessFlags false).map String.toList

theorem kw_words (m : Member) : ∀ w ∈ m.kw, w ≠ [] ∧ ' ' ∉ w ∧ '(' ∉ w := by
  have key : ∀ s ∈ m.prettyAccessFlags false, s ∈ ["public", "private", "protected", "static",
      "final", "strict", "native", "abstract", "enum", "module", "synchronized", "transient",
      "volatile"] := by
    intro s hs
    unfold Member.prettyAccessFlags at hs
    simp only [List.mem_append, Bool.false_and, Bool.false_eq_true, if_false, List.not_mem_nil,
      or_false] at hs
    have one : ∀ (b : Bool) (w : String), s ∈ (if b = true then [w] else []) → s = w := by
      intro b w h; cases b <;> simp at h; exact h
    rcases hs with (((((((((hs | hs) | hs) | hs) | hs) | hs) | hs) | hs) | hs) | hs) | hs
    all_goals try (rw [one _ _ hs]; decide)
    split at hs
    · rw [one _ _ (by simpa using hs)]; decide
    · rcases List.mem_append.1 hs with hs | hs <;> (rw [one _ _ hs]; decide)
  intro w hw
  obtain ⟨s, hs, rfl⟩ := List.mem_map.1 hw
  have := key s hs
  revert s
  have fact : ∀ s ∈ ["public", "private", "protected", "static",
      "final", "strict", "native", "abstract", "enum", "module", "synchronized", "transient",
      "volatile"], s.toList ≠ [] ∧ ' ' ∉ s.toList ∧ '(' ∉ s.toList := by decide +kernel
  intro s _ _ hm
  exact fact s hm

theorem java_ne_nil {t : JType} (h : t.Names fun n => n ≠ []) : t.java ≠ [] := by
  cases t with
  | prim p => cases p <;> decide
  | cls n =>
    intro e
    exact h (by simpa [JType.java] using e)
  | arr t => simp [JType.java]

theorem retJava_ne_nil {r : Option JType} (h : ∀ t, r = some t → t.Names fun n => n ≠ []) :
    retJava r ≠ [] := by
  cases r with
  | none => decide
  | some t => exact java_ne_nil (h t rfl)

theorem classTexts_str (exs : List Str) :
    classTexts (exs.map PVal.str) = .ok (exs.map prettyClass) := by
  induction exs with
  | nil => rfl
  | cons x xs ih => simp [classTexts, PVal.asStr, ih]

theorem prettyClass_ne_nil {s : Str} (h : s ≠ []) : prettyClass s ≠ [] := by
  unfold prettyClass
  simpa using h

/-- C103. The declaration of a method. -/
theorem C103_method (m : Member) (pool : Pool) (lim : Nat) (n : Str) (args : List JType)
    (ret : Option JType) (exs : List Str) (hm : m.isMethod = true)
    (hn : m.getName pool lim = .ok (.str n))
    (hd : m.getDescriptor pool lim = .ok (.str (methodDesc args ret)))
    (he : m.getExceptions pool lim = .ok (exs.map PVal.str))
    (hj : JavaTypes args ret) (hx : ∀ x ∈ exs, x ≠ []) :
    m.prettyDescriptor pool lim = .ok (methodDecl m.kw n args ret exs) := by
  have ha : ∀ t ∈ args, t.Names fun n => ')' ∉ n ∧ ';' ∉ n := fun t ht =>
    Names.imp (fun n h => ⟨JavaClassName.not_mem h (by decide) (by decide), JavaClassName.not_mem h (by decide) (by decide)⟩)
      (hj.1 t ht)
  have hr : ∀ t, ret = some t → t.Names NoSemi := fun t ht =>
    Names.imp (fun n h => JavaClassName.not_mem h (by decide) (by decide)) (hj.2 t ht)
  obtain ⟨_, _, h3, h4⟩ := C23_method_accessors m pool lim args ret hm hd ha hr
  have hname : m.name pool lim = .ok n := by unfold Member.name; rw [hn]; rfl
  have hex : m.prettyExceptions pool lim = .ok (exs.map prettyClass) := by
    unfold Member.prettyExceptions
    rw [he]
    exact classTexts_str exs
  have hret : retJava ret ≠ [] :=
    retJava_ne_nil fun t ht => Names.imp (fun n h => h.nonempty) (hj.2 t ht)
  have hk : ∀ w ∈ m.kw, w ≠ [] := fun w hw => (kw_words m w hw).1
  have htx : (joinWith ",".toList (exs.map prettyClass)).isEmpty = true ↔ exs = [] := by
    constructor
    · intro h
      by_cases hne : exs = []
      · exact hne
      · refine absurd (List.isEmpty_iff.1 h) (joinWith_ne_nil (by simpa using hne) ?_)
        intro x hx'
        obtain ⟨y, hy, rfl⟩ := List.mem_map.1 hx'
        exact prettyClass_ne_nil (hx y hy)
    · intro h; rw [h]; rfl
  have step : m.prettyDescriptor pool lim = .ok (joinWith " ".toList
      ([words m.kw, (if n = "<init>".toList then [] else retJava ret),
        n ++ "(".toList ++ joinWith ",".toList (args.map JType.java) ++ ")".toList,
        (if (joinWith ",".toList (exs.map prettyClass)).isEmpty = true then []
          else "throws ".toList ++ joinWith ",".toList (exs.map prettyClass))].filter
        fun z => !z.isEmpty)) := by
    unfold Member.prettyDescriptor
    simp only [h4, hname, hex, h3, hm, if_true, bind, Except.bind]
    rfl
  rw [step, decl_join m.kw _ _ _ hk (by simp)]
  unfold methodDecl
  generalize joinWith ",".toList (exs.map prettyClass) = ex at *
  generalize n ++ "(".toList ++ joinWith ",".toList (args.map JType.java) ++ ")".toList = nm at *
  have hp : (if (if n = "<init>".toList then [] else retJava ret) = [] then []
      else [if n = "<init>".toList then [] else retJava ret]) =
      (if n = "<init>".toList then [] else [retJava ret]) := by
    split <;> simp [hret]
  rw [hp]
  generalize (if n = "<init>".toList then [] else [retJava ret]) = tp
  refine congrArg Except.ok ?_
  by_cases hne : exs = []
  · simp [htx.2 hne, hne]
  · have hf : ex.isEmpty = false := by
      cases h : ex.isEmpty with
      | false => rfl
      | true => exact absurd (htx.1 h) hne
    have h1 := words_tail (m.kw ++ tp ++ [nm]) "throws".toList ex (by simp)
    have h2 : "throws".toList ++ " ".toList ++ ex = "throws ".toList ++ ex := rfl
    rw [h2] at h1
    rw [hf]
    simp only [Bool.false_eq_true, if_false, hne]
    rw [if_neg (by simp), h1]

/-- C103. The declaration of a field. -/
theorem C103_field (m : Member) (pool : Pool) (lim : Nat) (n : Str) (t : JType)
    (hm : m.isMethod = false) (hn : m.getName pool lim = .ok (.str n)) (hne : n ≠ [])
    (hni : n ≠ "<init>".toList)
    (hd : m.getDescriptor pool lim = .ok (.str t.desc)) (ht : t.Names JavaClassName)
    (he : m.getExceptions pool lim = .ok []) :
    m.prettyDescriptor pool lim = .ok (fieldDecl m.kw n t) := by
  obtain ⟨_, _, _, h4⟩ := C23_field_accessors m pool lim t hm hd
    (Names.imp (fun n h => JavaClassName.not_mem h (by decide) (by decide)) ht)
  have hname : m.name pool lim = .ok n := by unfold Member.name; rw [hn]; rfl
  have hex : m.prettyExceptions pool lim = .ok [] := by
    unfold Member.prettyExceptions
    rw [he]
    rfl
  have hj : t.java ≠ [] := java_ne_nil (Names.imp (fun n h => h.nonempty) ht)
  have step : m.prettyDescriptor pool lim = .ok (joinWith " ".toList
      ([words m.kw, t.java, n, []].filter fun z => !z.isEmpty)) := by
    unfold Member.prettyDescriptor
    simp only [h4, hname, hex, hm, Bool.false_eq_true, if_false, bind, Except.bind, hni]
    rfl
  rw [step, decl_join m.kw _ _ _ (fun w hw => (kw_words m w hw).1) hne]
  simp [hj, fieldDecl]

theorem java_no_char {t : JType} (h : t.Names JavaClassName) {c : Char}
    (hc : c ∈ [' ', '(', ')', ',']) : c ∉ t.java := by
  induction t with
  | prim p =>
    simp only [List.mem_cons, List.not_mem_nil, or_false] at hc
    rcases hc with rfl | rfl | rfl | rfl <;> cases p <;> decide
  | cls n =>
    intro hm
    simp only [JType.java, List.mem_map] at hm
    obtain ⟨d, hd, e⟩ := hm
    have hcn : c ∈ notIdent ∧ c ≠ '/' ∧ c ≠ '.' := by
      simp only [List.mem_cons, List.not_mem_nil, or_false] at hc
      rcases hc with rfl | rfl | rfl | rfl <;> decide
    split at e
    · exact hcn.2.2 e.symm
    · subst e; exact JavaClassName.not_mem h hcn.1 hcn.2.1 hd
  | arr t ih =>
    intro hm
    simp only [JType.java, List.mem_append] at hm
    rcases hm with hm | hm
    · exact ih h hm
    · simp only [List.mem_cons, List.not_mem_nil, or_false] at hc
      rcases hc with rfl | rfl | rfl | rfl <;> revert hm <;> decide

theorem java_injective {t u : JType} (ht : t.Names JavaClassName) (hu : u.Names JavaClassName)
    (h : t.java = u.java) : t = u :=
  C25_pretty_injective t u ht hu (by rw [prettyType_desc, prettyType_desc, h])

/-- No class is called `void`. -/
def NotVoid (ret : Option JType) : Prop := ret ≠ some (.cls "void".toList)

theorem retJava_injective {r s : Option JType} (hr : ∀ t, r = some t → t.Names JavaClassName)
    (hs : ∀ t, s = some t → t.Names JavaClassName) (hvr : NotVoid r) (hvs : NotVoid s)
    (h : retJava r = retJava s) : r = s := by
  have key : ∀ t : JType, t.Names JavaClassName → t ≠ .cls "void".toList → t.java ≠ "void".toList := by
    intro t ht hne e
    cases t with
    | prim p => cases p <;> exact absurd e (by decide)
    | cls n =>
      refine hne ?_
      rw [dotted_injective (a := n) (b := "void".toList)
        (JavaClassName.not_mem ht (by decide) (by decide)) (by decide) (e.trans (by decide))]
    | arr t =>
      have : ']' ∈ "void".toList := by rw [← e]; simp [JType.java]
      exact absurd this (by decide)
  cases r with
  | none =>
    cases s with
    | none => rfl
    | some u => exact absurd h.symm (key u (hs u rfl) fun e => hvs (by rw [e]))
  | some t =>
    cases s with
    | none => exact absurd h (key t (hr t rfl) fun e => hvr (by rw [e]))
    | some u => rw [java_injective (hr t rfl) (hs u rfl) h]

theorem map_injOn {α β : Type} (f : α → β) (xs ys : List α)
    (hf : ∀ x ∈ xs, ∀ y ∈ ys, f x = f y → x = y) (h : xs.map f = ys.map f) : xs = ys := by
  induction xs generalizing ys with
  | nil => cases ys with
    | nil => rfl
    | cons y ys => simp at h
  | cons x xs ih => cases ys with
    | nil => simp at h
    | cons y ys =>
      simp only [List.map_cons, List.cons.injEq] at h
      rw [hf x (by simp) y (by simp) h.1,
        ih ys (fun a ha b hb => hf a (by simp [ha]) b (by simp [hb])) h.2]

theorem prettyClass_not_mem {n : Str} (h : JavaClassName n) {c : Char} (hc : c ∈ [' ', '(', ')', ',']) :
    c ∉ prettyClass n := java_no_char (t := .cls n) h hc

/-- C103. The declaration of a method tells the keywords, the name, the arguments, the result
(except of a constructor, where it is void) and the exceptions. -/
theorem C103_method_injective (kw kw' : List Str) (n n' : Str) (args args' : List JType)
    (ret ret' : Option JType) (exs exs' : List Str)
    (hk : ∀ w ∈ kw, w ≠ [] ∧ ' ' ∉ w ∧ '(' ∉ w) (hk' : ∀ w ∈ kw', w ≠ [] ∧ ' ' ∉ w ∧ '(' ∉ w)
    (hn : JavaMemberName n) (hn' : JavaMemberName n')
    (hj : JavaTypes args ret) (hj' : JavaTypes args' ret') (hv : NotVoid ret) (hv' : NotVoid ret')
    (hx : ∀ x ∈ exs, JavaClassName x) (hx' : ∀ x ∈ exs', JavaClassName x)
    (h : methodDecl kw n args ret exs = methodDecl kw' n' args' ret' exs') :
    n = n' ∧ args = args' ∧ exs = exs' ∧ (n ≠ "<init>".toList → ret = ret' ∧ kw = kw') ∧
      (n = "<init>".toList → kw = kw') := by
  have blank : ∀ {n : Str}, JavaMemberName n → ' ' ∉ n := by
    intro n h
    rcases h.2 with h | h | h
    · intro hm; exact absurd (h ' ' hm) (by decide)
    · rw [h]; decide
    · rw [h]; decide
  -- the text up to the parenthesis, and what follows
  let pre : List Str → Str → Option JType → List Str := fun kw n ret =>
    kw ++ (if n = "<init>".toList then [] else [retJava ret]) ++ [n]
  let suf : List JType → List Str → Str := fun args exs =>
    joinWith ",".toList (args.map JType.java) ++ ')' :: (if exs = [] then [] else
      " throws ".toList ++ joinWith ",".toList (exs.map prettyClass))
  have shape : ∀ kw n args ret exs,
      methodDecl kw n args ret exs = words (pre kw n ret) ++ '(' :: suf args exs := by
    intro kw n args ret exs
    unfold methodDecl
    simp only [pre, suf]
    generalize (kw ++ if n = "<init>".toList then [] else [retJava ret]) = ws
    generalize joinWith ",".toList (args.map JType.java) = as
    generalize joinWith ",".toList (exs.map prettyClass) = es
    have one : ∀ (ws : List Str) (a b : Str), words (ws ++ [a ++ b]) = words (ws ++ [a]) ++ b := by
      intro ws a b
      unfold words
      cases ws with
      | nil => rfl
      | cons w ws =>
        rw [joinWith_append _ _ _ (by simp) (by simp), joinWith_append _ _ _ (by simp) (by simp)]
        simp [joinWith]
    have two : ∀ (ws : List Str) (a b : Str), ws ≠ [] →
        words (ws ++ [a, b]) = words ws ++ " ".toList ++ a ++ " ".toList ++ b := by
      intro ws a b hne
      unfold words
      rw [joinWith_append _ _ _ hne (by simp)]
      simp [joinWith]
    by_cases he : exs = []
    · simp only [he, if_true, List.append_nil]
      have := one ws n ("(".toList ++ as ++ ")".toList)
      simp only [List.append_assoc] at this ⊢
      rw [this]
      rfl
    · simp only [he, if_false]
      rw [two _ _ _ (by simp)]
      have := one ws n ("(".toList ++ as ++ ")".toList)
      simp only [List.append_assoc] at this ⊢
      rw [this]
      simp
  rw [shape, shape] at h
  have good : ∀ kw n ret, (∀ w ∈ kw, w ≠ [] ∧ ' ' ∉ w ∧ '(' ∉ w) → JavaMemberName n →
      (∀ t, ret = some t → t.Names JavaClassName) →
      ∀ w ∈ pre kw n ret, w ≠ [] ∧ ' ' ∉ w ∧ '(' ∉ w := by
    intro kw n ret hk hn hr w hw
    have hret : retJava ret ≠ [] ∧ ' ' ∉ retJava ret ∧ '(' ∉ retJava ret := by
      refine ⟨retJava_ne_nil fun t ht => Names.imp (fun n h => h.nonempty) (hr t ht), ?_⟩
      cases ret with
      | none => decide
      | some t => exact ⟨java_no_char (hr t rfl) (by decide), java_no_char (hr t rfl) (by decide)⟩
    simp only [pre, List.mem_append, List.mem_singleton] at hw
    rcases hw with (hw | hw) | hw
    · exact hk w hw
    · split at hw
      · simp at hw
      · rw [List.mem_singleton.1 hw]; exact hret
    · rw [hw]; exact ⟨hn.1, blank hn, JavaMemberName.no_paren hn⟩
  have g := good kw n ret hk hn hj.2
  have g' := good kw' n' ret' hk' hn' hj'.2
  have nop : ∀ ws : List Str, (∀ w ∈ ws, w ≠ [] ∧ ' ' ∉ w ∧ '(' ∉ w) → '(' ∉ words ws := by
    intro ws hw hm
    rcases mem_joinWith hm with hm | ⟨w, h1, h2⟩
    · exact absurd hm (by decide)
    · exact (hw w h1).2.2 h2
  obtain ⟨h1, h2⟩ := split_first (nop _ g) (nop _ g') h
  have h3 : pre kw n ret = pre kw' n' ret' :=
    joinWith_sep_injective ' ' [] _ _ (fun w hw => ⟨(g w hw).2.1, (g w hw).1⟩)
      (fun w hw => ⟨(g' w hw).2.1, (g' w hw).1⟩) h1
  have hnn : n = n' := by
    have := congrArg List.getLast? h3
    simpa [pre] using this
  subst hnn
  -- the arguments
  have noc : ∀ (args : List JType), (∀ t ∈ args, t.Names JavaClassName) →
      ')' ∉ joinWith ",".toList (args.map JType.java) := by
    intro args ha hm
    rcases mem_joinWith hm with hm | ⟨w, h1, h2⟩
    · exact absurd hm (by decide)
    · obtain ⟨t, ht, rfl⟩ := List.mem_map.1 h1
      exact java_no_char (ha t ht) (by decide) h2
  obtain ⟨h4, h5⟩ := split_first (noc args hj.1) (noc args' hj'.1) h2
  have cln : ∀ (args : List JType), (∀ t ∈ args, t.Names JavaClassName) →
      ∀ s ∈ args.map JType.java, ',' ∉ s ∧ s ≠ [] := by
    intro args ha s hs
    obtain ⟨t, ht, rfl⟩ := List.mem_map.1 hs
    exact ⟨java_no_char (ha t ht) (by decide),
      java_ne_nil (Names.imp (fun n h => h.nonempty) (ha t ht))⟩
  have h6 : args = args' := map_injOn _ _ _
    (fun t ht u hu e => java_injective (hj.1 t ht) (hj'.1 u hu) e)
    (joinWith_comma_injective _ _ (cln args hj.1) (cln args' hj'.1) h4)
  -- the exceptions
  have exc : ∀ (exs : List Str), (∀ x ∈ exs, JavaClassName x) →
      ∀ s ∈ exs.map prettyClass, ',' ∉ s ∧ s ≠ [] := by
    intro exs hx s hs
    obtain ⟨x, hxm, rfl⟩ := List.mem_map.1 hs
    exact ⟨prettyClass_not_mem (hx x hxm) (by decide), prettyClass_ne_nil (hx x hxm).nonempty⟩
  have h7 : exs = exs' := by
    split at h5 <;> split at h5
    · rename_i a b; rw [a, b]
    · simp at h5
    · simp at h5
    · have := joinWith_comma_injective _ _ (exc exs hx) (exc exs' hx') (List.append_cancel_left h5)
      exact map_injOn _ _ _ (fun x hxm y hym e => dotted_injective
        (JavaClassName.not_mem (hx x hxm) (by decide) (by decide))
        (JavaClassName.not_mem (hx' y hym) (by decide) (by decide)) e) this
  refine ⟨rfl, h6, h7, ?_, ?_⟩
  · intro hi
    simp only [pre, hi, if_false, List.append_assoc] at h3
    have h8 := List.append_inj' h3 rfl
    simp only [List.cons_append, List.nil_append, List.cons.injEq, and_true] at h8
    exact ⟨retJava_injective hj.2 hj'.2 hv hv' h8.2, h8.1⟩
  · intro hi
    simp only [pre, hi, if_true, List.append_nil] at h3
    exact (List.append_inj' h3 rfl).1

/-- C103. The declaration of a field tells the keywords, the name and the type. -/
theorem C103_field_injective (kw kw' : List Str) (n n' : Str) (t t' : JType)
    (hk : ∀ w ∈ kw, w ≠ [] ∧ ' ' ∉ w) (hk' : ∀ w ∈ kw', w ≠ [] ∧ ' ' ∉ w)
    (hn : n ≠ [] ∧ ' ' ∉ n) (hn' : n' ≠ [] ∧ ' ' ∉ n')
    (ht : t.Names JavaClassName) (ht' : t'.Names JavaClassName)
    (h : fieldDecl kw n t = fieldDecl kw' n' t') : kw = kw' ∧ n = n' ∧ t = t' := by
  have good : ∀ (kw : List Str) (n : Str) (t : JType), (∀ w ∈ kw, w ≠ [] ∧ ' ' ∉ w) →
      n ≠ [] ∧ ' ' ∉ n → t.Names JavaClassName →
      ∀ w ∈ kw ++ [t.java, n], ' ' ∉ w ∧ w ≠ [] := by
    intro kw n t hk hn ht w hw
    simp only [List.mem_append, List.mem_cons, List.not_mem_nil, or_false] at hw
    rcases hw with hw | rfl | rfl
    · exact ⟨(hk w hw).2, (hk w hw).1⟩
    · exact ⟨java_no_char ht (by decide), java_ne_nil (Names.imp (fun n h => h.nonempty) ht)⟩
    · exact ⟨hn.2, hn.1⟩
  have h3 := joinWith_sep_injective ' ' [] _ _ (good kw n t hk hn ht) (good kw' n' t' hk' hn' ht') h
  have h4 := List.append_inj' h3 rfl
  simp only [List.cons.injEq, and_true] at h4
  exact ⟨h4.1, h4.2.2, java_injective ht ht' h4.2.1⟩

/-- A method with everything, a constructor, a field. -/
example :
    let pool : Pool := [none, some (.utf8 "f".toList), some (.utf8 "(I[Ljava/util/Map;)V".toList),
      some (.utf8 "<init>".toList), some (.utf8 "a/E".toList), some (.cls 4), some (.utf8 "[J".toList)]
    (Member.mk 0x0109 1 2 [(.str "Exceptions".toList, [0, 2, 0, 5, 0, 5])] true).prettyDescriptor pool 9 =
      .ok "public static native void f(int,java.util.Map[]) throws a.E,a.E".toList ∧
    (Member.mk 0 3 2 [] true).prettyDescriptor pool 9 = .ok "<init>(int,java.util.Map[])".toList ∧
    (Member.mk 0x12 1 6 [] false).prettyDescriptor pool 9 = .ok "private final long[] f".toList := by
  decide +kernel

/-! ## C104 -/

/-- The declaration of a class: keywords, `class` unless it is an interface, name, superclass if
there is one, interfaces. -/
def classDecl (kw : List Str) (isInterface : Bool) (this : Str) (super : Str) (ifs : List Str) : Str :=
  words (kw ++ (if isInterface then [] else ["class".toList]) ++ [prettyClass this] ++
    (if super = [] then [] else ["extends".toList, prettyClass super]) ++
    (if ifs = [] then [] else ["implements".toList, joinWith ",".toList (ifs.map prettyClass)]))

def ClassInfo.kw (c : ClassInfo) : List Str := c.prettyAccessFlags.map String.toList

/-- The full claim: the declaration of a class. -/
def C104_full : Prop :=
  ∀ (c : ClassInfo) (lim : Nat) (this super : Str) (ifs : List Str),
    c.getThis lim = .ok (.str this) → c.getSuper lim = .ok (.str super) →
    c.getInterfaces lim = .ok (ifs.map PVal.str) → this ≠ [] → (∀ x ∈ ifs, x ≠ []) →
    c.prettyDescriptor lim = .ok (classDecl c.kw c.isInterface this super ifs)

/-- C104. What is shown, for any class. -/
theorem C104_exact (c : ClassInfo) (lim : Nat) (this super : Str) (ifs : List Str)
    (h1 : c.getThis lim = .ok (.str this)) (h2 : c.getSuper lim = .ok (.str super))
    (h3 : c.getInterfaces lim = .ok (ifs.map PVal.str)) (hx : ∀ x ∈ ifs, x ≠ []) :
    c.prettyDescriptor lim = .ok (words c.kw ++ (if c.isInterface then [] else " class".toList) ++
      " ".toList ++ prettyClass this ++ " extends ".toList ++ prettyClass super ++
      (if ifs = [] then [] else
        " implements ".toList ++ joinWith ",".toList (ifs.map prettyClass))) := by
  have hkw : keywords c.prettyAccessFlags = words c.kw := rfl
  unfold ClassInfo.prettyDescriptor ClassInfo.prettyThis
  simp only [h1, h2, h3, bind, Except.bind, PVal.asStr, classTexts_str, hkw]
  by_cases he : ifs = []
  · subst he
    cases c.isInterface <;> simp [joinWith]
  · have : (joinWith ",".toList (ifs.map prettyClass)).isEmpty = false := by
      have : joinWith ",".toList (ifs.map prettyClass) ≠ [] :=
        joinWith_ne_nil (by simpa using he) (by
          intro x hx'
          obtain ⟨y, hy, rfl⟩ := List.mem_map.1 hx'
          exact prettyClass_ne_nil (hx y hy))
      cases h : joinWith ",".toList (ifs.map prettyClass) with
      | nil => exact absurd h this
      | cons a b => rfl
    rw [this]
    cases c.isInterface <;> simp [he]

/-- C104. The claim holds for a class with a keyword and a superclass. -/
theorem C104_partial (c : ClassInfo) (lim : Nat) (this super : Str) (ifs : List Str)
    (h1 : c.getThis lim = .ok (.str this)) (h2 : c.getSuper lim = .ok (.str super))
    (h3 : c.getInterfaces lim = .ok (ifs.map PVal.str)) (hx : ∀ x ∈ ifs, x ≠ [])
    (hk : c.kw ≠ []) (hs : super ≠ []) :
    c.prettyDescriptor lim = .ok (classDecl c.kw c.isInterface this super ifs) := by
  rw [C104_exact c lim this super ifs h1 h2 h3 hx]
  congr 1
  unfold classDecl
  have app : ∀ xs ys : List Str, xs ≠ [] → ys ≠ [] →
      words (xs ++ ys) = words xs ++ " ".toList ++ words ys :=
    fun xs ys h1 h2 => joinWith_append _ xs ys h1 h2
  have one : ∀ a, words [a] = a := fun a => rfl
  have two : ∀ a b, words [a, b] = a ++ " ".toList ++ b := fun a b => rfl
  by_cases he : ifs = [] <;> cases c.isInterface <;>
    simp only [he, hs, if_true, if_false, List.append_nil, Bool.false_eq_true, List.append_assoc]
  · rw [app _ _ hk (by simp), app _ _ (by simp) (by simp), app _ _ (by simp) (by simp), one, one, two]
    simp
  · rw [app _ _ hk (by simp), app _ _ (by simp) (by simp), one, two]
    simp
  · rw [app _ _ hk (by simp), app _ _ (by simp) (by simp), app _ _ (by simp) (by simp),
      app _ _ (by simp) (by simp), one, one, two, two]
    simp
  · rw [app _ _ hk (by simp), app _ _ (by simp) (by simp), app _ _ (by simp) (by simp), one, two, two]
    simp

/-- C104. The full claim is false: a class that is not public is shown with a blank in front. -/
theorem C104_full_fails : ¬ C104_full := by
  intro h
  have := h { annotated with access := 0x20 } 9 "C".toList "java/lang/Object".toList []
    (by decide +kernel) (by decide +kernel) (by decide +kernel) (by decide) (by simp)
  exact absurd this (by decide +kernel)

example : ClassInfo.prettyDescriptor { annotated with access := 0x20 } 9 =
      .ok " class C extends java.lang.Object".toList ∧
    ClassInfo.prettyDescriptor { annotated with superRef := 0, interfaces := [8] } 9 =
      .ok "public class C extends  implements java.lang.Object".toList ∧
    ClassInfo.prettyDescriptor annotated 9 = .ok "public class C extends java.lang.Object".toList := by
  decide +kernel

end Javatools
