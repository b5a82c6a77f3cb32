import Verif.Props.CodeListing
import Verif.Props.Member
import Verif.Proofs.Dir
/-
C98, C100, C101, C105-C109: what the classinfo tool prints.
-/
namespace Javatools
open Spec

/-! ## C98 -/

/-- C98. Which members are shown: `--public` those with the public bit, `--package` those with the
public or the protected bit, `--private` all, `--header` none. -/
theorem C98_visible (o : InfoArgs) (m : Member) :
    (o.level = 0 → shouldShow o m = false) ∧
    (o.level = 1 → shouldShow o m = m.access.testBit 0) ∧
    (o.level = 3 → shouldShow o m = (m.access.testBit 0 || m.access.testBit 2)) ∧
    (o.level = 7 → shouldShow o m = true) := by
  have h0 : m.isPublic = m.access.testBit 0 := flag_iff m.access 0
  have h2 : m.isProtected = m.access.testBit 2 := flag_iff m.access 2
  refine ⟨fun h => ?_, fun h => ?_, fun h => ?_, fun h => ?_⟩ <;> unfold shouldShow <;>
    simp [h, h0, h2]

/-- None of the options that add to the terse listing. -/
structure InfoArgs.Terse (o : InfoArgs) : Prop where
  lines : o.lines = false
  locals : o.locals = false
  disassemble : o.disassemble = false
  sigs : o.sigs = false
  constpool : o.constpool = false
  verbose : o.verbose = false
  provides : o.classProvides = false
  requires : o.classRequires = false
  notHeader : o.level ≠ 0

/-- The line of a member. -/
def memberLine (text : Str) : Str := "   ".toList ++ text ++ ";".toList

/-- The terse listing: where the class is from, its declaration, the fields and the methods that
are shown, in the order of the file, one line each. -/
def terseText (o : InfoArgs) (c : ClassInfo) (source : Option Str) (decl : Str)
    (text : Member → Str) : Str :=
  (match source with
    | some s => "Compiled from \"".toList ++ s ++ "\"\n".toList
    | none => []) ++ decl ++
  unlines (["{".toList] ++
    ((c.fields ++ c.methods).filter (shouldShow o)).map (fun m => memberLine (text m)) ++
    ["}".toList, []])

/-- What the listing is made of can be computed. -/
structure Readable (E : PrintEnv) (o : InfoArgs) (c : ClassInfo) (source : Option Str) (decl : Str)
    (text : Member → Str) : Prop where
  src : derefAttr c.attribs c.pool E.lim "SourceFile" = .ok (source.map PVal.str)
  nonempty : source ≠ some []
  dcl : c.prettyDescriptor E.lim = .ok decl
  fields : ∀ m ∈ c.fields, shouldShow o m = true → m.prettyDescriptor c.pool E.lim = .ok (text m)
  methods : ∀ m ∈ c.methods, shouldShow o m = true →
    m.prettyDescriptor c.pool E.lim = .ok (text m) ∧
    (∃ as, getAnnotations m.attribs c.pool E.lim E.depth "RuntimeVisibleAnnotations" = .ok as ∧
      ∃ ts : List Str, as.map (annoText E c.pool) = ts.map Except.ok) ∧
    ∃ code, m.getCode c.pool E.lim = .ok code

/-- The full claim: the terse listing has one line for each member that is shown. -/
def C98_full : Prop :=
  ∀ (E : PrintEnv) (o : InfoArgs) (c : ClassInfo) (source : Option Str) (decl : Str)
    (text : Member → Str), o.Terse → Readable E o c source decl text →
    printClassinfo E o c = (terseText o c source decl text, none)

theorem terse_field (E : PrintEnv) (o : InfoArgs) (pool : Pool) (m : Member) (t : Str)
    (ho : o.Terse) (h : m.prettyDescriptor pool E.lim = .ok t) :
    printField E o pool m = (memberLine t ++ ['\n'], none) := by
  unfold printField printHead InfoArgs.indent
  simp [ho.lines, ho.disassemble, ho.sigs, ho.verbose, h, memberLine]

theorem terse_method (E : PrintEnv) (o : InfoArgs) (pool : Pool) (m : Member) (t : Str)
    (ho : o.Terse) (h : m.prettyDescriptor pool E.lim = .ok t) (code : Option CodeInfo)
    (hc : m.getCode pool E.lim = .ok code) :
    printMethod E o pool m =
      andThen (memberLine t ++ ['\n'], none) (printAnnotations E pool m.attribs) := by
  unfold printMethod printHead InfoArgs.indent
  cases code <;>
    simp [ho.lines, ho.disassemble, ho.sigs, ho.verbose, ho.locals, h, hc, memberLine]

theorem seqOut_lines (f : Member → Out) (g : Member → Str) (ms : List Member)
    (h : ∀ m ∈ ms, f m = (g m ++ ['\n'], none)) :
    seqOut (ms.map f) = (unlines (ms.map g), none) := by
  induction ms with
  | nil => rfl
  | cons m ms ih =>
    simp [h m (by simp), ih fun k hk => h k (by simp [hk])]

/-- C98. The terse listing is exact when no method that is shown has annotations. -/
theorem C98_partial (E : PrintEnv) (o : InfoArgs) (c : ClassInfo) (source : Option Str) (decl : Str)
    (text : Member → Str) (ho : o.Terse) (h : Readable E o c source decl text)
    (hna : ∀ m ∈ c.methods, shouldShow o m = true →
      getAttribute m.attribs "RuntimeVisibleAnnotations" = none) :
    printClassinfo E o c = (terseText o c source decl text, none) := by
  have hf : seqOut ((c.fields.filter (shouldShow o)).map (printField E o c.pool)) =
      (unlines ((c.fields.filter (shouldShow o)).map fun m => memberLine (text m)), none) := by
    apply seqOut_lines
    intro m hm
    obtain ⟨h1, h2⟩ := List.mem_filter.1 hm
    exact terse_field E o c.pool m _ ho (h.fields m h1 h2)
  have hmm : seqOut ((c.methods.filter (shouldShow o)).map (printMethod E o c.pool)) =
      (unlines ((c.methods.filter (shouldShow o)).map fun m => memberLine (text m)), none) := by
    apply seqOut_lines
    intro m hm
    obtain ⟨h1, h2⟩ := List.mem_filter.1 hm
    obtain ⟨h3, _, code, h5⟩ := h.methods m h1 h2
    rw [terse_method E o c.pool m _ ho h3 code h5]
    simp [printAnnotations, getAnnotations, hna m h1 h2]
  have hsrc := h.src
  unfold printClassinfo printMembers terseText
  rw [hf, hmm, hsrc, h.dcl]
  cases source with
  | none =>
    simp [ho.provides, ho.requires, ho.verbose, ho.constpool, ho.notHeader, unlines_append,
      List.filter_append]
  | some s =>
    have hs : s.isEmpty = false := by
      cases s with
      | nil => exact absurd rfl h.nonempty
      | cons a s => rfl
    simp [ho.provides, ho.requires, ho.verbose, ho.constpool, ho.notHeader, unlines_append,
      List.filter_append, PVal.truthy, PrintEnv.str, hs]

/-- Where the class is from, if that is known. -/
def sourceLine : Option Str → Str
  | some s => "Compiled from \"".toList ++ s ++ "\"\n".toList
  | none => []

/-- C98. With `--header` only the declaration and the header are shown, and no member, whatever
members the class has. -/
theorem C98_header (E : PrintEnv) (o : InfoArgs) (c : ClassInfo) (source : Option Str) (decl : Str)
    (hp : o.classProvides = false) (hr : o.classRequires = false) (hk : o.constpool = false)
    (hl : o.level = 0)
    (hs : derefAttr c.attribs c.pool E.lim "SourceFile" = .ok (source.map PVal.str))
    (hn : source ≠ some []) (hd : c.prettyDescriptor E.lim = .ok decl) (t : Str)
    (ht : printHeader E c = (t, none)) :
    printClassinfo E o c =
      (sourceLine source ++ decl ++ t, none) := by
  unfold printClassinfo sourceLine
  rw [hs, hd, ht]
  cases source with
  | none => simp [hp, hr, hk, hl]
  | some s =>
    have he : s.isEmpty = false := by
      cases s with
      | nil => exact absurd rfl hn
      | cons a s => rfl
    simp [hp, hr, hk, hl, PVal.truthy, PrintEnv.str, he]

/-- A class with one public method `int f()` that has the annotation `A`. -/
def annotated : ClassInfo :=
  { version := (52, 0), access := 0x21, thisRef := 7, superRef := 8, interfaces := [],
    pool := [none, some (.utf8 "f".toList), some (.utf8 "()I".toList), some (.utf8 "LA;".toList),
      some (.utf8 "C".toList), some (.utf8 "java/lang/Object".toList), none, some (.cls 4),
      some (.cls 5)],
    fields := [],
    methods := [⟨1, 1, 2, [(.str "RuntimeVisibleAnnotations".toList, [0, 2, 0, 3, 0, 0, 0, 3, 0, 0])],
      true⟩],
    attribs := [] }

def listEnv : PrintEnv := ⟨20, 20, fun _ => true, fun _ => []⟩

example : printClassinfo listEnv { level := 0 } annotated =
    ("public class C extends java.lang.Object\n  minor version: 52\n  major version: 0\n  Platform: 1.8\n".toList,
      none) := by decide +kernel

theorem annotated_text : printClassinfo listEnv {} annotated =
    ("public class C extends java.lang.Object{\n   public int f();\n  RuntimeVisibleAnnotations:\n  0: A()\n  0: A()\n}\n\n".toList,
      none) := by decide +kernel

/-- C98. The full claim is false: the annotations of a method are printed even in the terse listing. -/
theorem C98_full_fails : ¬ C98_full := by
  intro h
  have h1 := h listEnv {} annotated none "public class C extends java.lang.Object".toList
    (fun _ => "public int f()".toList) ⟨rfl, rfl, rfl, rfl, rfl, rfl, rfl, rfl, by decide⟩
    { src := by decide +kernel
      nonempty := by decide
      dcl := by decide +kernel
      fields := by simp [annotated]
      methods := by
        intro m hm _
        simp only [annotated, List.mem_singleton] at hm
        subst hm
        refine ⟨by decide +kernel, ⟨[.anno 3 [], .anno 3 []], rfl,
          ["A()".toList, "A()".toList], by decide +kernel⟩, none, by decide +kernel⟩ }
  rw [annotated_text] at h1
  exact absurd h1 (by decide +kernel)

/-- A class with a private field, a public field, a protected and a public method. -/
def plain : ClassInfo :=
  { annotated with
    fields := [⟨2, 1, 3, [], false⟩, ⟨1, 4, 3, [], false⟩],
    methods := [⟨4, 1, 2, [], true⟩, ⟨9, 4, 2, [], true⟩],
    attribs := [(.str "SourceFile".toList, [0, 4])] }

/-- The three listings. -/
example : printClassinfo listEnv {} plain =
      ("Compiled from \"C\"\npublic class C extends java.lang.Object{\n   public A C;\n   public static int C();\n}\n\n".toList,
        none) ∧
    printClassinfo listEnv { level := 3 } plain =
      ("Compiled from \"C\"\npublic class C extends java.lang.Object{\n   public A C;\n   protected int f();\n   public static int C();\n}\n\n".toList,
        none) ∧
    printClassinfo listEnv { level := 7 } plain =
      ("Compiled from \"C\"\npublic class C extends java.lang.Object{\n   private A f;\n   public A C;\n   protected int f();\n   public static int C();\n}\n\n".toList,
        none) := by decide +kernel

/-! ## C100 -/

/-- The full claim: a class that can be listed as text can be listed as JSON. -/
def C100_full : Prop :=
  ∀ (E : PrintEnv) (o : InfoArgs) (c : ClassInfo), (printClassinfo E o.norm c).2 = none →
    ∃ j, simplifyClassinfo E o.norm c = .ok j

/-- C100. Any member that is to be shown makes the JSON report fail. -/
theorem C100_fails (E : PrintEnv) (o : InfoArgs) (c : ClassInfo) (m : Member)
    (hm : m ∈ c.fields ∨ m ∈ c.methods) (hs : shouldShow o m = true) (j : ClassJson) :
    simplifyClassinfo E o c ≠ .ok j := by
  have key : ∀ ms : List Member, m ∈ ms → simplifyMembers o ms = .error .attributeError := by
    intro ms h
    unfold simplifyMembers
    cases hf : ms.filter (shouldShow o) with
    | nil => exact absurd (List.mem_filter.2 ⟨h, hs⟩) (by rw [hf]; simp)
    | cons a as => rfl
  intro h
  unfold simplifyClassinfo at h
  simp only [bind, Except.bind] at h
  repeat' split at h
  all_goals (try (simp at h; done))
  rcases hm with hm | hm
  · have := key _ hm; simp_all
  · have := key _ hm; simp_all

/-- C100. If no member is shown, the report has the name, the superclass, the interfaces, the
source file, the version and the platform of the class. -/
theorem C100_partial (E : PrintEnv) (o : InfoArgs) (c : ClassInfo) (name super : Str) (ifs : List PVal)
    (is : List Str) (src sig enc : Option PVal) (sup : PVal)
    (hp : o.classProvides = false) (hr : o.classRequires = false) (hc : o.constpool = false)
    (hns : ∀ m, m ∈ c.fields ∨ m ∈ c.methods → shouldShow o m = false)
    (h1 : c.prettyThis E.lim = .ok name) (h2 : c.getSuper E.lim = .ok sup)
    (h3 : sup.asStr = .ok super) (h4 : c.getInterfaces E.lim = .ok ifs)
    (h5 : classTexts ifs = .ok is)
    (h6 : derefAttr c.attribs c.pool E.lim "SourceFile" = .ok src)
    (h7 : derefAttr c.attribs c.pool E.lim "Signature" = .ok sig)
    (h8 : c.getEnclosingmethod E.str E.lim = .ok enc) :
    ∃ j, simplifyClassinfo E o c = .ok j ∧ j.name = name ∧ j.extends_ = prettyClass super ∧
      j.implements = is ∧ j.sourceFile = src ∧ j.version = c.version ∧
      j.platform = platformFromVersion c.version.1 c.version.2 ∧ j.constants = none := by
  have key : ∀ ms : List Member, (∀ m ∈ ms, shouldShow o m = false) → simplifyMembers o ms = .ok [] := by
    intro ms h
    unfold simplifyMembers
    rw [List.filter_eq_nil_iff.2 fun m hm => by rw [h m hm]; decide]
  unfold simplifyClassinfo
  simp only [bind, Except.bind, hp, hr, hc, h1, h2, h3, h4, h5, h6, h7, h8,
    key c.fields fun m hm => hns m (.inl hm), key c.methods fun m hm => hns m (.inr hm)]
  exact ⟨_, rfl, rfl, rfl, rfl, rfl, rfl, rfl, rfl⟩

/-- C100. The full claim is false. -/
theorem C100_full_fails : ¬ C100_full := by
  intro h
  obtain ⟨j, hj⟩ := h listEnv {} annotated
    (by
      have : (printClassinfo listEnv {} annotated).2 = none := by rw [annotated_text]
      exact this)
  exact C100_fails listEnv {} annotated _ (.inr (List.mem_singleton.2 rfl)) (by decide) j hj

example : ∃ j, simplifyClassinfo listEnv { level := 0 } annotated = .ok j ∧ j.name = "C".toList ∧
    j.extends_ = "java.lang.Object".toList :=
  ⟨_, rfl, rfl, rfl⟩

/-! ## C101 -/

/-- The lines of the version. -/
def versionLines (c : ClassInfo) : Str :=
  "  minor version: ".toList ++ natText c.version.2 ++
  "\n  major version: ".toList ++ natText c.version.1 ++
  "\n  Platform: ".toList ++
    ((platformFromVersion c.version.1 c.version.2).getD "unknown").toList ++ "\n".toList

/-- The full claim: with `--header` a class (here one without attributes) is shown with its version:
the second number of the version as the minor one, the first as the major one. -/
def C101_full : Prop :=
  ∀ (E : PrintEnv) (c : ClassInfo), c.attribs = [] →
    printHeader E c = ('\n' :: versionLines c, none)

/-- C101. What is printed: the numbers are exchanged. -/
theorem C101_exact (E : PrintEnv) (c : ClassInfo) (h : c.attribs = []) :
    printHeader E c = ("\n  minor version: ".toList ++ natText c.version.1 ++
      "\n  major version: ".toList ++ natText c.version.2 ++ "\n  Platform: ".toList ++
      ((platformFromVersion c.version.1 c.version.2).getD "unknown").toList ++ "\n".toList,
      none) := by
  have hd : ∀ n : String, getAttribute c.attribs n = none := by intro n; rw [h]; rfl
  unfold printHeader printAnnotations derefAttr getAnnotations ClassInfo.getEnclosingmethod
  simp [hd]

/-- C101. The lines are right exactly when the two numbers are the same. -/
theorem C101_partial (E : PrintEnv) (c : ClassInfo) (h : c.attribs = []) :
    printHeader E c = ('\n' :: versionLines c, none) ↔ c.version.1 = c.version.2 := by
  rw [C101_exact E c h]
  constructor
  · intro e
    have e1 := (Prod.mk.inj e).1
    unfold versionLines at e1
    simp only [List.append_assoc] at e1
    have e2 : natText c.version.1 ++ '\n' :: _ = natText c.version.2 ++ '\n' :: _ :=
      List.append_cancel_left (as := "\n  minor version: ".toList) e1
    exact natText_inj (split_first (natText_not_mem _ (by decide)) (natText_not_mem _ (by decide)) e2).1
  · intro e
    unfold versionLines
    rw [e]
    simp

/-- C101. The full claim is false for every class file in use: the major number is at least 45. -/
theorem C101_full_fails : ¬ C101_full := by
  intro h
  have := (C101_partial listEnv annotated rfl).1 (h _ _ rfl)
  exact absurd this (by decide)

example : printHeader listEnv annotated =
    ("\n  minor version: 52\n  major version: 0\n  Platform: 1.8\n".toList, none) := by decide +kernel

/-! ## C105 -/

/-- The lines of a list of texts, numbered from `i` on. -/
def numberedLines : Nat → List Str → List Str
  | _, [] => []
  | i, t :: ts => ("  ".toList ++ natText i ++ ": ".toList ++ t) :: numberedLines (i + 1) ts

/-- The full claim: the annotations are numbered 0, 1, 2, … -/
def C105_full : Prop :=
  ∀ (E : PrintEnv) (pool : Pool) (as : List AVal) (ts : List Str),
    as.map (annoText E pool) = ts.map Except.ok →
    annoLines E pool as = (unlines (numberedLines 0 ts), none)

/-- C105. What is printed: every number is 0. -/
theorem C105_exact (E : PrintEnv) (pool : Pool) (as : List AVal) (ts : List Str)
    (h : as.map (annoText E pool) = ts.map Except.ok) :
    annoLines E pool as = (unlines (ts.map fun t => "  0: ".toList ++ t), none) := by
  have h0 : natText 0 = ['0'] := by decide +kernel
  induction as generalizing ts with
  | nil => cases ts with
    | nil => rfl
    | cons t ts => simp at h
  | cons a as ih => cases ts with
    | nil => simp at h
    | cons t ts =>
      simp only [List.map_cons, List.cons.injEq] at h
      simp [annoLines, h.1, ih ts h.2, h0]

/-- C105. The numbers are right exactly when there are not several annotations. -/
theorem C105_partial (E : PrintEnv) (pool : Pool) (as : List AVal) (ts : List Str)
    (h : as.map (annoText E pool) = ts.map Except.ok) :
    annoLines E pool as = (unlines (numberedLines 0 ts), none) ↔ as.length ≤ 1 := by
  have hl : as.length = ts.length := by simpa using congrArg List.length h
  rw [C105_exact E pool as ts h, hl]
  have h0 : natText 0 = ['0'] := by decide +kernel
  have h1 : natText 1 = ['1'] := by decide +kernel
  cases ts with
  | nil => simp [numberedLines]
  | cons t ts =>
    cases ts with
    | nil => simp [numberedLines, h0]
    | cons t' ts =>
      simp [numberedLines, h0, h1]

/-- C105. The annotations shown are the visible ones, below a heading; without any, nothing is
shown. -/
theorem C105_shown (E : PrintEnv) (pool : Pool) (a : Attribs) (as : List AVal) (ts : List Str)
    (ha : getAnnotations a pool E.lim E.depth "RuntimeVisibleAnnotations" = .ok as)
    (h : as.map (annoText E pool) = ts.map Except.ok) :
    printAnnotations E pool a = (if as = [] then []
      else unlines ("  RuntimeVisibleAnnotations:".toList :: ts.map fun t => "  0: ".toList ++ t), none) := by
  unfold printAnnotations
  rw [ha]
  cases as with
  | nil => simp
  | cons x as => simp [withRes, C105_exact E pool _ ts h]

theorem C105_full_fails : ¬ C105_full := by
  intro h
  have := (C105_partial listEnv annotated.pool [.anno 3 [], .anno 3 []] ["A()".toList, "A()".toList]
    (by decide +kernel)).1 (h _ _ _ _ (by decide +kernel))
  exact absurd this (by decide)

/-! ## C106 -/

theorem strLt_iff (a b : Str) : strLt a b = true ↔ a < b := by
  induction a generalizing b with
  | nil => cases b <;> simp [strLt]
  | cons x a ih =>
    cases b with
    | nil => simp [strLt]
    | cons y b =>
      rw [List.cons_lt_cons_iff]
      unfold strLt
      by_cases h : x = y
      · subst h; simp [ih, Char.lt_irrefl]
      · simp [h]

theorem insertName_sorted (x : Str) (l : List Str) (h : l.Pairwise (· ≤ ·)) :
    (insertName x l).Pairwise (· ≤ ·) := by
  induction l with
  | nil => simp [insertName]
  | cons y l ih =>
    unfold insertName
    have hy := List.pairwise_cons.1 h
    split
    · rename_i hlt
      have hxy : x ≤ y := List.le_of_lt ((strLt_iff x y).1 hlt)
      refine List.pairwise_cons.2 ⟨fun z hz => ?_, h⟩
      rcases List.mem_cons.1 hz with rfl | hz
      · exact hxy
      · exact List.le_trans hxy (hy.1 z hz)
    · rename_i hlt
      have hyx : y ≤ x := by
        rw [← List.not_lt]
        exact fun h => hlt ((strLt_iff x y).2 h)
      refine List.pairwise_cons.2 ⟨fun z hz => ?_, ih hy.2⟩
      rcases List.mem_cons.1 ((insertName_perm x l).mem_iff.1 hz) with rfl | hz
      · exact hyx
      · exact hy.1 z hz

/-- `sorted` of strings is in order. -/
theorem sortNames_sorted (l : List Str) : (sortNames l).Pairwise (· ≤ ·) := by
  induction l with
  | nil => simp [sortNames]
  | cons x l ih => exact insertName_sorted x _ ih

theorem nameLines_eq (xs : List Str) :
    nameLines xs = (unlines (xs.map fun x => "  ".toList ++ x), none) := by
  induction xs with
  | nil => rfl
  | cons x xs ih => simp [nameLines, ih]

/-- C106. `--class-provides` prints the provided symbols, each once, in order. -/
theorem C106_provides (E : PrintEnv) (o : InfoArgs) (c : ClassInfo) (n : Str) (ns : List Str)
    (hp : o.classProvides = true) (hr : o.classRequires = false) (hn : c.prettyThis E.lim = .ok n)
    (h : (getProvides fnmatch c E.lim o.apiIgnore false .empty).1 = .ok ns) :
    ∃ sorted : List Str, sorted.Perm ns ∧ sorted.Pairwise (· ≤ ·) ∧
      printClassinfo E o c = ("class ".toList ++ n ++ " provides:\n".toList ++
        unlines (sorted.map fun x => "  ".toList ++ x) ++ "\n".toList, none) := by
  refine ⟨sortNames ns, sortNames_perm ns, sortNames_sorted ns, ?_⟩
  unfold printClassinfo printApi printSymbols
  simp [hp, hr, hn, h, nameLines_eq]

/-- C106. `--class-requires` prints the required symbols, each once, in order. -/
theorem C106_requires (E : PrintEnv) (o : InfoArgs) (c : ClassInfo) (n : Str) (ns : List Str)
    (hp : o.classProvides = false) (hr : o.classRequires = true) (hn : c.prettyThis E.lim = .ok n)
    (h : (getRequires fnmatch c E.lim o.apiIgnore .empty).1 = .ok ns) :
    ∃ sorted : List Str, sorted.Perm ns ∧ sorted.Pairwise (· ≤ ·) ∧
      printClassinfo E o c = ("class ".toList ++ n ++ " requires:\n".toList ++
        unlines (sorted.map fun x => "  ".toList ++ x) ++ "\n".toList, none) := by
  refine ⟨sortNames ns, sortNames_perm ns, sortNames_sorted ns, ?_⟩
  unfold printClassinfo printApi printSymbols
  simp [hp, hr, hn, h, nameLines_eq]

example : printClassinfo listEnv { classProvides := true } plain =
    ("class C provides:\n  C\n  C.C():int\n  C.C:A\n\n".toList, none) := by decide +kernel

/-! ## C107 -/

/-- C107. If every file can be shown, the output is that of the files one after the other. -/
theorem C107_all (E : PrintEnv) (o : InfoArgs) (files : List (Res Bytes)) (texts : List Str)
    (h : files.map (printClass E o.norm) = texts.map fun t => (t, none)) :
    classinfoCli E o files = (texts.flatten, none) := by
  unfold classinfoCli
  rw [h]
  clear h
  induction texts with
  | nil => rfl
  | cons t ts ih => simp [ih]

/-- C107. The first exception ends the run: what the files before it gave has been printed, the
files after it are not looked at. -/
theorem C107_stops (E : PrintEnv) (o : InfoArgs) (before after : List (Res Bytes)) (bad : Res Bytes)
    (texts : List Str) (t : Str) (e : PyErr)
    (h : before.map (printClass E o.norm) = texts.map fun t => (t, none))
    (hb : printClass E o.norm bad = (t, some e)) :
    classinfoCli E o (before ++ bad :: after) = (texts.flatten ++ t, some e) := by
  have h1 := C107_all E o before texts h
  unfold classinfoCli at h1 ⊢
  rw [List.map_append, seqOut_append, h1]
  simp [hb]

/-- C107. A file that is no class file is such an exception. -/
theorem C107_no_class (E : PrintEnv) (o : InfoArgs) (b : Bytes) (e : PyErr)
    (h : unpackClass E.lim (.bytes b) = .error e) : printClass E o (.ok b) = ([], some e) := by
  unfold printClass
  simp [h]

example : (classinfoCli listEnv {} [.ok [1, 2, 3], .error .indexError]).2.isSome = true ∧
    (classinfoCli listEnv {} []) = ([], none) := by decide +kernel

/-! ## C108 -/

/-- The exceptions of a method, as they are to be listed. -/
def throwsText (ns : List Str) : Str :=
  if ns.isEmpty then "\n".toList
  else "  Exceptions:\n".toList ++ unlines (ns.map fun n => "   throws ".toList ++ prettyClass n) ++
    "\n".toList

/-- The full claim: the verbose listing of a method has the exceptions it declares, under a heading
if there are some. -/
def C108_full : Prop :=
  ∀ (E : PrintEnv) (pool : Pool) (m : Member) (ns : List Str),
    m.getExceptions pool E.lim = .ok (ns.map PVal.str) →
    printThrows E pool m = (throwsText ns, none)

/-- C108. What is printed: the heading is always there. -/
theorem C108_exact (E : PrintEnv) (pool : Pool) (m : Member) (ns : List Str)
    (h : m.getExceptions pool E.lim = .ok (ns.map PVal.str)) :
    printThrows E pool m = ("  Exceptions:\n".toList ++
      unlines (ns.map fun n => "   throws ".toList ++ prettyClass n) ++ "\n".toList, none) := by
  have key : ∀ ns : List Str, throwsLines (ns.map PVal.str) =
      (unlines (ns.map fun n => "   throws ".toList ++ prettyClass n), none) := by
    intro ns
    induction ns with
    | nil => rfl
    | cons n ns ih => simp [throwsLines, PVal.asStr, ih]
  unfold printThrows
  simp [h, key]

/-- C108. It is right exactly for the methods that declare exceptions. -/
theorem C108_partial (E : PrintEnv) (pool : Pool) (m : Member) (ns : List Str)
    (h : m.getExceptions pool E.lim = .ok (ns.map PVal.str)) :
    printThrows E pool m = (throwsText ns, none) ↔ ns ≠ [] := by
  rw [C108_exact E pool m ns h]
  unfold throwsText
  cases ns with
  | nil => simp
  | cons n ns => simp

theorem C108_full_fails : ¬ C108_full := by
  intro h
  have := (C108_partial listEnv [] ⟨1, 1, 2, [], true⟩ [] rfl).1 (h _ _ _ _ rfl)
  exact this rfl

example : printThrows listEnv [none, some (.cls 2), some (.utf8 "a/E".toList)]
    ⟨1, 1, 2, [(.str "Exceptions".toList, [0, 1, 0, 1])], true⟩ =
    ("  Exceptions:\n   throws a.E\n\n".toList, none) := by decide +kernel

/-! ## C109 -/

theorem lineLines_eq (t : List (Nat × Nat)) :
    lineLines t =
      (unlines (t.map fun p => "   line ".toList ++ natText p.2 ++ ": ".toList ++ natText p.1), none) := by
  induction t with
  | nil => rfl
  | cons p t ih => obtain ⟨a, b⟩ := p; simp [lineLines, ih]

/-- C109. `-l` prints the table of line numbers, row by row. -/
theorem C109_lines (t : List (Nat × Nat)) :
    lineLines t =
      (unlines (t.map fun p => "   line ".toList ++ natText p.2 ++ ": ".toList ++ natText p.1), none) :=
  lineLines_eq t

/-- C109. What is printed determines the table. -/
theorem C109_lines_injective (t u : List (Nat × Nat)) (h : lineLines t = lineLines u) : t = u := by
  rw [lineLines_eq, lineLines_eq] at h
  have hn : ∀ n, '\n' ∉ natText n := fun n => natText_not_mem n (by decide)
  have nl : ∀ t : List (Nat × Nat), ∀ l ∈ t.map fun p =>
      "   line ".toList ++ natText p.2 ++ ": ".toList ++ natText p.1, '\n' ∉ l := by
    intro t l hl
    obtain ⟨p, _, rfl⟩ := List.mem_map.1 hl
    simp [hn]
  have e := unlines_injective (nl t) (nl u) (Prod.mk.inj h).1
  clear h
  induction t generalizing u with
  | nil => cases u with
    | nil => rfl
    | cons q u => simp at e
  | cons p t ih => cases u with
    | nil => simp at e
    | cons q u =>
      simp only [List.map_cons, List.cons.injEq] at e
      have e1 : natText p.2 ++ ':' :: (' ' :: natText p.1) =
          natText q.2 ++ ':' :: (' ' :: natText q.1) := by simpa using e.1
      obtain ⟨h1, h2⟩ := split_first (natText_not_mem _ (by decide)) (natText_not_mem _ (by decide)) e1
      rw [ih u e.2, Prod.ext (natText_inj (List.cons.inj h2).2) (natText_inj h1)]

/-- A row of a table of local variables. -/
def localRow (off len slot : Nat) (name desc : Str) : Str :=
  "   ".toList ++ natText off ++ '\t' :: natText len ++ '\t' :: natText slot ++ '\t' :: name ++
    '\t' :: desc

/-- C109. `-o` prints a table of local variables, row by row, with the names and descriptors the
constants stand for. -/
theorem C109_locals (E : PrintEnv) (pool : Pool) (t : List (Nat × Nat × Nat × Nat × Nat))
    (str : Nat → Str) (h : ∀ r ∈ t, deref pool E.lim r.2.2.1 = .ok (.str (str r.2.2.1)) ∧
      deref pool E.lim r.2.2.2.1 = .ok (.str (str r.2.2.2.1))) :
    localLines E pool t = (unlines (t.map fun r =>
      localRow r.1 r.2.1 r.2.2.2.2 (str r.2.2.1) (str r.2.2.2.1)), none) := by
  induction t with
  | nil => rfl
  | cons r t ih =>
    obtain ⟨off, len, n, d, i⟩ := r
    obtain ⟨h1, h2⟩ := h (off, len, n, d, i) (by simp)
    simp only at h1 h2
    simp [localLines, constStr, h1, h2, ih fun r hr => h r (by simp [hr]), localRow, joinWith]

/-- The table of line numbers, if there is one. -/
def linesText (t : List (Nat × Nat)) : Str :=
  if t = [] then []
  else "  LineNumberTable:\n".toList ++
    unlines (t.map fun p => "   line ".toList ++ natText p.2 ++ ": ".toList ++ natText p.1)

/-- A table of local variables, if there is one. -/
def localsText (title last : String) (str : Nat → Str) (t : List (Nat × Nat × Nat × Nat × Nat)) : Str :=
  if t = [] then []
  else "  ".toList ++ title.toList ++ ":\n   Start  Length  Slot\tName\t".toList ++ last.toList ++
    "\n".toList ++ unlines (t.map fun r =>
      localRow r.1 r.2.1 r.2.2.2.2 (str r.2.2.1) (str r.2.2.2.1))

/-- C109. Where the tables are printed: behind the code, and before the exceptions of `--verbose`, the
table of line numbers with `-l` and those of local variables with `-o`. -/
theorem C109_method (E : PrintEnv) (o : InfoArgs) (pool : Pool) (m : Member) (code : CodeInfo)
    (lnt : List (Nat × Nat)) (lvt lvtt : List (Nat × Nat × Nat × Nat × Nat)) (str : Nat → Str)
    (hc : m.getCode pool E.lim = .ok (some code)) (hl : code.getLinenumbertable = .ok lnt)
    (hv : code.getVariableTable "LocalVariableTable" = .ok lvt)
    (hw : code.getVariableTable "LocalVariableTypeTable" = .ok lvtt)
    (hs : ∀ r ∈ lvt ++ lvtt, deref pool E.lim r.2.2.1 = .ok (.str (str r.2.2.1)) ∧
      deref pool E.lim r.2.2.2.1 = .ok (.str (str r.2.2.2.1)))
    (t : Str) (h : printMethod E o pool m = (t, none)) :
    ∃ before after, t = before ++
        ((if o.lines then linesText lnt else []) ++
        (if o.locals then localsText "LocalVariableTable" "Descriptor" str lvt ++
          localsText "LocalVariableTypeTable" "Signature" str lvtt else [])) ++ after ∧
      (o.verbose = false → after = []) := by
  have e1 := C109_locals E pool lvt str fun r hr => hs r (by simp [hr])
  have e2 := C109_locals E pool lvtt str fun r hr => hs r (by simp [hr])
  have e3 : onlyIf (!lnt.isEmpty) (andThen (sayLine "  LineNumberTable:".toList) (lineLines lnt)) =
      (linesText lnt, none) := by
    unfold linesText
    rw [lineLines_eq]
    cases lnt <;> simp [onlyIf]
  have e4 : printLocals E pool code = (localsText "LocalVariableTable" "Descriptor" str lvt ++
      localsText "LocalVariableTypeTable" "Signature" str lvtt, none) := by
    unfold printLocals localsText
    rw [hv, hw]
    simp only [withRes_ok]
    rw [e1, e2]
    cases lvt <;> cases lvtt <;> simp [onlyIf]
  unfold printMethod at h
  rw [hc] at h
  simp only [withRes_ok, hl, e3, e4, seqOut_cons, seqOut_nil, andThen_nil] at h
  have key : ∀ (a : Out) (b : Out), andThen a b = (t, none) → ∃ x, a = (x, none) ∧
      ∃ y, b = (y, none) ∧ t = x ++ y := by
    rintro ⟨a, ea⟩ ⟨b, eb⟩ h
    cases ea with
    | some e => simp at h
    | none =>
      simp only [andThen_none, Prod.mk.injEq] at h
      exact ⟨a, rfl, b, by rw [h.2], h.1.symm⟩
  rw [← andThen_assoc, ← andThen_assoc, ← andThen_assoc] at h
  obtain ⟨x, -, y, hy, rfl⟩ := key _ _ h
  clear h key
  obtain ⟨after, ha, hv⟩ : ∃ after, onlyIf o.verbose (printThrows E pool m) = (after, none) ∧
      (o.verbose = false → after = []) := by
    cases hov : o.verbose with
    | false => exact ⟨[], by simp [onlyIf], fun _ => rfl⟩
    | true =>
      refine ⟨(printThrows E pool m).1, ?_, by simp⟩
      cases h1 : o.lines <;> cases h2 : o.locals <;>
        simp only [h1, h2, hov, onlyIf, Bool.false_eq_true, if_true, if_false, andThen_none,
          Prod.mk.injEq] at hy ⊢ <;> rw [Prod.ext_iff] <;> exact ⟨rfl, hy.2⟩
  rw [ha] at hy
  refine ⟨x, after, ?_, hv⟩
  cases h1 : o.lines <;> cases h2 : o.locals <;>
    simp only [h1, h2, onlyIf, Bool.false_eq_true, if_true, if_false, andThen_none,
      Prod.mk.injEq] at hy ⊢ <;> simp [← hy.1]

/-- C109. `--verbose` is `-l -o -c -s -p`. -/
theorem C109_verbose (o : InfoArgs) (h : o.verbose = true) :
    o.norm = { o with
      lines := true, locals := true, disassemble := true, sigs := true, constpool := true } ∧
    ∀ o' : InfoArgs, o'.verbose = false → o'.norm = o' := by
  refine ⟨by unfold InfoArgs.norm; rw [if_pos h], fun o' h' => ?_⟩
  unfold InfoArgs.norm
  simp [h']

example : localLines listEnv annotated.pool [(0, 5, 1, 3, 0), (2, 3, 4, 3, 1)] =
    ("   0\t5\t0\tf\tLA;\n   2\t3\t1\tC\tLA;\n".toList, none) ∧
    lineLines [(0, 7), (4, 9)] = ("   line 7: 0\n   line 9: 4\n".toList, none) := by decide +kernel

example : printMethod listEnv { lines := true, locals := true }
      [none, some (.utf8 "f".toList), some (.utf8 "()V".toList), some (.utf8 "LineNumberTable".toList),
        some (.utf8 "LocalVariableTable".toList), some (.utf8 "I".toList)]
      ⟨1, 1, 2, [(.str "Code".toList, [0, 1, 0, 1, 0, 0, 0, 1, 0xb1, 0, 0, 0, 2,
        0, 3, 0, 0, 0, 6, 0, 1, 0, 0, 0, 7,
        0, 4, 0, 0, 0, 12, 0, 1, 0, 0, 0, 1, 0, 1, 0, 5, 0, 2])], true⟩ =
    (("public void f();\n  LineNumberTable:\n   line 7: 0\n  LocalVariableTable:\n" ++
      "   Start  Length  Slot\tName\tDescriptor\n   0\t1\t2\tf\tI\n").toList, none) := by decide +kernel

/-- C99 on the bytes of a method: the listing of `-c`. -/
example : printCode listEnv { disassemble := true } [] ⟨1, 1, 2, [], true⟩
      ⟨2, 2, encCode 0 [.fixed 0x1a [], .fixed 0x10 [5], .lookupswitch 8 [(-7, 9)], .fixed 0xc2 []],
        [], []⟩ =
    ("  Code:\n   0:\tiload_0\n   1:\tbipush\t5\n   3:\tlookupswitch\t8, [(-7, 9)]\n   20:\tmonitorentry\n".toList,
      none) := by decide +kernel

end Javatools
