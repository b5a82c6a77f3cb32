import Verif.Props.Member
import Verif.Props.ClassFile
import Verif.Props.OpTable
import Verif.Props.Annotation
import Verif.Props.Attrs
import Verif.Props.Zip
import Verif.Props.DistDiff
import Verif.Props.ManifestCli2
import Verif.Props.JarInfoCli
import Verif.Props.ClassInfoCli

/-!
Further properties that do not hold for all inputs, and the inputs for which they do.
-/

namespace Javatools

open Spec

/-! ## C11 -/

theorem toNat_valid {u : Nat} (hv : u.isValidChar) : (Char.ofNat u).toNat = u := by
  simp [Char.ofNat, hv, Char.toNat, Char.ofNatAux]

theorem ofNat_le {u : Nat} (h : u < 65536) : (Char.ofNat u).toNat < 65536 := by
  by_cases hv : u.isValidChar
  · rw [toNat_valid hv]; exact h
  · simp [Char.ofNat, hv]

/-- C11, for exactly which strings: those without supplementary characters. -/
theorem C11_exact (us : List Nat) (h : ∀ u ∈ us, u < 65536) (s : Str) (hs : utf16Text us = some s) :
    decodeUtf8Const (mutf8 us) = s ↔ ∀ c ∈ s, c.toNat < 0x10000 := by
  rw [C11_decodes_non_surrogates us h]
  constructor
  · rintro rfl c hc
    obtain ⟨u, hu, rfl⟩ := List.mem_map.1 hc
    exact ofNat_le (h u (List.mem_filter.1 hu).1)
  · intro hc
    fun_induction utf16Text us generalizing s with
    | case1 => simpa using hs
    | case2 u us hu ih =>
      obtain ⟨s', h1, rfl⟩ := Option.map_eq_some_iff.1 hs
      rw [List.filter_cons_of_pos (by simpa using hu), List.map_cons,
        ih (fun x hx => h x (by simp [hx])) s' h1 fun c hc' => hc c (by simp [hc'])]
    | case3 => cases hs
    | case4 u hu v us' hv ih =>
      exfalso
      obtain ⟨s', h1, rfl⟩ := Option.map_eq_some_iff.1 hs
      have h2 := hc _ (List.mem_cons_self ..)
      have h3 : (0x10000 + (u - 0xD800) * 1024 + (v - 0xDC00)).isValidChar :=
        .inr ⟨by omega, by omega⟩
      rw [toNat_valid h3] at h2
      omega
    | case5 => cases hs

/-- `A`, NUL, a letter of three bytes; and `A` with a supplementary character. -/
example : decodeUtf8Const (mutf8 [0x41, 0, 0x20AC]) = ['A', '\x00', Char.ofNat 0x20AC] ∧
    decodeUtf8Const (mutf8 [0x41, 0xD83D, 0xDE00]) ≠ ['A', Char.ofNat 0x1F600] :=
  ⟨(C11_exact _ (by decide) _ (by decide)).2 (by decide),
    fun h => absurd ((C11_exact _ (by decide) _ (by decide)).1 h) (by decide)⟩

/-! ## C13 -/

/-- C13, for exactly which members: those whose Deprecated attribute is not empty, as it has to be. -/
theorem C13_exact (a : Attribs) :
    isDeprecated a = (getAttribute a "Deprecated").isSome ↔ getAttribute a "Deprecated" ≠ some [] := by
  unfold isDeprecated truthyAttr
  cases getAttribute a "Deprecated" with
  | none => simp
  | some b => cases b <;> simp

example : isDeprecated [(.str "Deprecated".toList, [0])] = true ∧
    isDeprecated [(.str "Deprecated".toList, [])] = false := by decide

/-! ## C16 -/

/-- C16, for exactly which lists of argument types: those for which there is no bridge to find. -/
theorem C16_exact (c : ClassInfo) (lim : Nat) (nm : Member → Str) (ar : Member → List Str)
    (hn : ∀ m ∈ c.methods, m.getName c.pool lim = .ok (.str (nm m)))
    (ha : ∀ m ∈ c.methods, m.argTypeDescriptors c.pool lim = .ok (ar m))
    (name : Str) (args : List Str) :
    c.getMethodBridges lim name (.list args) = .ok (c.methods.filter (fun m =>
      decide (nm m = name ∧ m.access.testBit 6 = true ∧ ar m = args))) ↔
    ∀ m ∈ c.methods, nm m = name → m.access.testBit 6 = true → ar m ≠ args := by
  rw [C16_bridges_list_empty c lim nm ar hn ha]
  constructor
  · intro h m hm h1 h2 h3
    have : m ∈ ([] : List Member) := by
      rw [Except.ok.inj h]; simp [hm, h1, h2, h3]
    cases this
  · intro h
    rw [eq_comm, List.filter_eq_nil_iff.2]
    intro m hm
    simp only [decide_eq_true_eq]
    rintro ⟨h1, h2, h3⟩
    exact h m hm h1 h2 h3

/-- A bridge `f()`, and a list of one argument type. -/
example : (ClassInfo.mk (52, 0) [none, some (.utf8 "f".toList), some (.utf8 "()V".toList)] 0 0 0 [] []
      [⟨0x40, 1, 2, [], true⟩] []).getMethodBridges 5 "f".toList (.list ["I".toList]) = .ok [] ∧
    (ClassInfo.mk (52, 0) [none, some (.utf8 "f".toList), some (.utf8 "()V".toList)] 0 0 0 [] []
      [⟨0x40, 1, 2, [], true⟩] []).getMethodBridges 5 "f".toList (.tuple []) =
      .ok [⟨0x40, 1, 2, [], true⟩] := by decide

/-! ## C18 -/

theorem noNaN_of_eq : ∀ v : PVal, pyEq v v = true → NoNaN v
  | .str _, _ => trivial
  | .int _, _ => trivial
  | .flt .nan, h => by simp [pyEq, pyEqFloat] at h
  | .flt (.inf _), _ => trivial
  | .flt (.fin _ _ _), _ => trivial
  | .pair a b, h => by
    simp only [pyEq, Bool.and_eq_true] at h
    exact ⟨noNaN_of_eq a h.1, noNaN_of_eq b h.2⟩

theorem ordinary_of_same {pool : Pool} {lim : Nat} {v : AVal} {s : Sem} (hm : Means pool lim v s)
    (h : Same s s) : s.Ordinary := by
  induction hm with
  | const => cases h with | const h => exact .const (noNaN_of_eq _ h)
  | enum => cases h with | enum h1 h2 => exact .enum (noNaN_of_eq _ h1) (noNaN_of_eq _ h2)
  | @anno t es x fs h1 h2 h3 _ ih =>
    cases h with
    | anno h4 _ h5 =>
      refine .anno (noNaN_of_eq _ h4) (h2 ▸ h3) ?_
      intro p hp
      obtain ⟨i, hi, hi'⟩ := List.mem_iff_getElem.1 hp
      have hl : es.length = fs.length := by simpa [PyDict.keys] using congrArg List.length h2
      exact ih i es[i] p (List.getElem?_eq_getElem (hl ▸ hi)) (by rw [List.getElem?_eq_getElem hi, hi'])
        (h5 p.1 p.2 p.2 hp hp)
  | @arr vs ss hl _ ih =>
    cases h with
    | arr _ h2 =>
      refine .arr fun s hs => ?_
      obtain ⟨i, hi, hi'⟩ := List.mem_iff_getElem.1 hs
      have h3 : ss[i]? = some s := by rw [List.getElem?_eq_getElem hi, hi']
      exact ih i vs[i] s (List.getElem?_eq_getElem (hl ▸ hi)) h3 (h2 i s s h3 h3)

/-- C18, for exactly which annotations: one equals itself if and only if there is no NaN in it. -/
theorem C18_exact (pool : Pool) (lim : Nat) (v : AVal) (s : Sem) (h : Means pool lim v s) :
    valEq pool pool lim v v = .ok true ↔ s.Ordinary :=
  (C18_equal_iff_same_meaning pool pool lim v v s s h h).1.trans
    ⟨ordinary_of_same h, Spec.Same.refl⟩

/-- A number and a NaN. -/
example : valEq [none, some (.float 0x3F800000)] [none, some (.float 0x3F800000)] 5 (.const 70 1)
      (.const 70 1) = .ok true ∧
    ¬ valEq [none, some (.float 0x7FC00000)] [none, some (.float 0x7FC00000)] 5 (.const 70 1)
      (.const 70 1) = .ok true :=
  ⟨(C18_exact _ 5 _ (.const 70 (.flt (.fin false 8388608 (-23)))) (.const (by decide))).2 (.const trivial),
    fun h => by
      cases (C18_exact _ 5 _ (.const 70 (.flt .nan)) (.const (by decide))).1 h with
      | const h => exact h⟩

/-! ## C20 -/

/-- C20, for exactly which constants: those that are not of kind Dynamic. -/
theorem C20_exact (pool : Pool) (i : Nat) (c : Const) (h : pool[i]? = some (some c)) :
    prettyConst pool i = .ok (some (kindName c, c)) ↔ c.isDynamic = false := by
  obtain ⟨_, h1, h2, _⟩ := C20_pretty_const_partial pool i
  cases hd : c.isDynamic with
  | false => exact ⟨fun _ => rfl, fun _ => h1 c h hd⟩
  | true => rw [h2 c h hd]; constructor <;> intro h' <;> cases h'

/-- C20, for exactly which pools there is a listing: those without a constant of kind Dynamic in a
slot but the first. -/
theorem C20_listing (pool : Pool) :
    (∃ l, prettyConstants pool = .ok l) ↔ ∀ i c, i ≠ 0 → pool[i]? = some (some c) → c.isDynamic = false := by
  have key : ∀ (p : Pool) (k : Nat), (∃ l, prettyConstantsFrom k p = .ok l) ↔
      ∀ c, some c ∈ p → c.isDynamic = false := by
    intro p
    induction p with
    | nil => intro k; simp [prettyConstantsFrom]
    | cons x p ih =>
      intro k
      cases x with
      | none => rw [prettyConstantsFrom, ih]; simp
      | some c =>
        have h1 := (C20_pretty_const_partial [some c] 0).2.1 c rfl
        have h2 := (C20_pretty_const_partial [some c] 0).2.2.1 c rfl
        simp only [prettyConst, List.getElem?_cons_zero] at h1 h2
        rw [prettyConstantsFrom]
        cases hd : c.isDynamic with
        | true =>
          have h3 := h2 hd
          cases hp : prettyConstTypeVal c with
          | ok y => rw [hp] at h3; cases h3
          | error e =>
            constructor
            · rintro ⟨l, hl⟩; cases hl
            · intro h; have := h c (by simp); rw [hd] at this; cases this
        | false =>
          have h3 := h1 hd
          cases hp : prettyConstTypeVal c with
          | error e => rw [hp] at h3; cases h3
          | ok y =>
            constructor
            · rintro ⟨l, hl⟩ c' hc'
              simp only [bind, Except.bind] at hl
              cases hq : prettyConstantsFrom (k + 1) p with
              | error e => rw [hq] at hl; cases hl
              | ok l' =>
                rcases List.mem_cons.1 hc' with e | hc'
                · obtain rfl := Option.some.inj e; exact hd
                · exact (ih (k + 1)).1 ⟨l', hq⟩ c' hc'
            · intro h
              obtain ⟨l, hl⟩ := (ih (k + 1)).2 fun c' hc' => h c' (by simp [hc'])
              exact ⟨_, by simp only [bind, Except.bind, hl]; rfl⟩
  rw [prettyConstants, key]
  constructor
  · intro h i c hi hc
    refine h c (List.mem_iff_getElem?.2 ⟨i - 1, ?_⟩)
    rw [List.getElem?_drop, show 1 + (i - 1) = i by omega]; exact hc
  · intro h c hc
    obtain ⟨i, hi⟩ := List.mem_iff_getElem?.1 hc
    rw [List.getElem?_drop] at hi
    exact h (1 + i) c (by omega) hi

example : (∃ l, prettyConstants [none, some (.utf8 []), some (.cls 1)] = .ok l) ∧
    ¬ ∃ l, prettyConstants [none, some (.utf8 []), some (.dynamic 0 1)] = .ok l := by
  rw [C20_listing, C20_listing]
  refine ⟨?_, fun h => absurd (h 2 _ (by decide) rfl) (by decide)⟩
  intro i c hi hc
  match i, hi with
  | 1, _ => obtain rfl := Option.some.inj (Option.some.inj hc); rfl
  | 2, _ => obtain rfl := Option.some.inj (Option.some.inj hc); rfl

/-! ## C29 -/

/-- C29, for exactly which opcodes the flag is right: all but multianewarray. -/
theorem C29_exact (op : Nat) (os : List Operand) (h : operands op = some os) :
    (hasConstArg op = .ok true ↔ ∃ o ∈ os, o.isPool = true) ↔ op ≠ 0xc5 := by
  constructor
  · rintro h1 rfl
    rw [C29_const_multianewarray] at h1
    have h2 : operands 0xc5 = some os := h
    have : ∃ o ∈ os, o.isPool = true := by
      obtain rfl := Option.some.inj h2.symm
      decide
    cases h1.2 this
  · intro hne
    rw [C29_const_partial op os h hne]
    simp

example : ∃ os, operands 0xc5 = some os ∧ ¬ (hasConstArg 0xc5 = .ok true ↔ ∃ o ∈ os, o.isPool = true) :=
  ⟨_, rfl, fun h => (C29_exact 0xc5 _ rfl).1 h rfl⟩

/-! ## C56 -/

/-- C56, for exactly which archive files: those in which no common entry agrees in size and CRC. -/
theorem C56_exact (order : List Str → List Str) (open_ : Str → Res Archive) (left right : Str)
    (l r : Archive) (ho : IsSetOrder order) (hl : open_ left = .ok l) (hr : open_ right = .ok r)
    (hcl : l.closed = false) (hcr : r.closed = false) (hxl : Consistent l) (hxr : Consistent r)
    (hzl : l.exploded = false) (hzr : r.exploded = false) (hne : ¬ ([] ∈ names l ∧ [] ∈ names r)) :
    compareNamed order open_ left right = .ok (compareZips order l r) ↔
      ∀ f ∈ names l, f ∈ names r → ¬ Alike l r f := by
  constructor
  · intro h f h1 h2 h3
    obtain ⟨evs, h4⟩ := C56_raises order open_ left right l r ho hl hr hzl hzr hne ⟨f, h1, h2, h3⟩
    obtain ⟨evs', _, h5, _⟩ := C55_partial order l r ho hcl hcr hxl hxr hzl hzr hne
    rw [h, h5] at h4
    cases h4
  · exact C56_partial order open_ left right l r ho hl hr hzl hzr

/-- An entry with different contents, and the same entry twice. -/
example : compareNamed dedup (fun p => .ok (zipOf false [("a".toList, p.map fun c => UInt8.ofNat c.toNat)]))
      "x".toList "y".toList = .ok ([(.diff, "a".toList)], none) ∧
    compareNamed dedup (fun p => .ok (zipOf false [("a".toList, p.map fun c => UInt8.ofNat c.toNat)]))
      "x".toList "x".toList = .ok ([], some .valueError) := by decide +kernel

/-! ## C76 -/

theorem sameTrees_noClash {l r : Forest} (hl : l.Ok) (hr : r.Ok) (h : SameTrees l r) : NoClash l r := by
  intro p
  constructor
  · rintro ⟨⟨b, t, hb⟩, hd⟩
    obtain ⟨u, hu⟩ := (h p b).1 ⟨t, hb⟩
    exact hu.not_dirAt hr hd
  · rintro ⟨hd, b, t, hb⟩
    obtain ⟨u, hu⟩ := (h p b).2 ⟨t, hb⟩
    exact hu.not_dirAt hl hd

/-- C76, for exactly which distributions with the same files the status is 0, whatever the options
are: no directory has two common subdirectories, and every text file is in UTF-8 or the comparison
is shallow. -/
theorem C76_exact (E : DistEnv) (l r : Forest) (shallow : Bool) (o : DiffOpts) (hl : l.Ok) (hr : r.Ok)
    (hs : SameTrees l r) :
    distDiffStatus E l r shallow o = .ok 0 ↔ OneCommon l r ∧
      ∀ p b t, FileAt l p b t → DistKindOf shallow (commonName p) .text → ∃ s, b = encodeUtf8 s := by
  constructor
  · intro h
    have h1 : OneCommon l r := by
      apply Classical.byContradiction
      intro hn
      rw [C76_subdirs E l r shallow o hl hr hn] at h
      cases h
    refine ⟨h1, fun p b t hb hk => ?_⟩
    have hsh : shallow = false := hk.1
    subst hsh
    apply Classical.byContradiction
    intro hn
    obtain ⟨u, hu⟩ := (hs p b).1 ⟨t, hb⟩
    exact C76_undecodable E l r o hl hr (sameTrees_noClash hl hr hs) p b b t u hb hu hk
      (fun s e => hn ⟨s, e⟩) 0 h
  · rintro ⟨h1, h2⟩
    exact C76_partial E l r shallow o hl hr hs h1 h2

/-- A text file that is not UTF-8. -/
example : distDiffStatus demoDist (.file "a.txt".toList [0xFF] 0 .nil) (.file "a.txt".toList [0xFF] 0 .nil)
    false (jarOpts [] []) ≠ .ok 0 := by
  have hok : (Forest.file "a.txt".toList [0xFF] 0 .nil).Ok := ⟨by simp [IsName], by decide, trivial⟩
  rw [ne_eq, C76_exact demoDist _ _ false _ hok hok fun _ _ => Iff.rfl]
  rintro ⟨_, h⟩
  obtain ⟨s, hs⟩ := h ["a.txt".toList] [0xFF] 0 (.here ..)
    ⟨rfl, ".txt", by simp [textSuffixes], "./a".toList, by decide⟩
  have := (decodeStrict_iff [0xFF] s).2 hs
  revert this
  have : decodeStrict [0xFF] = none := by decide +kernel
  rw [this]
  exact nofun

/-! ## C81 -/

/-- C81, for exactly which ways to pass the magic number: as a tuple, unless the rest is refused
anyway. -/
theorem C81_exact (lim : Nat) (m : MagicArg) (rest : Bytes) (h : m.asTuple = [0xCA, 0xFE, 0xBA, 0xBE]) :
    (unpackClassArg lim m).run rest = unpackClass lim (.bytes ([0xCA, 0xFE, 0xBA, 0xBE] ++ rest)) ↔
      m = .tuple [0xCA, 0xFE, 0xBA, 0xBE] ∨
      unpackClass lim (.bytes ([0xCA, 0xFE, 0xBA, 0xBE] ++ rest)) = .error .classUnpack := by
  cases m with
  | absent => cases h
  | tuple ns =>
    obtain rfl : ns = _ := h
    simp [(C81_tuple_partial lim rest).1]
  | bytes bs =>
    rw [C81_bytes_and_str_refused lim _ rest (.inl ⟨bs, (by rintro rfl; cases h), rfl⟩)]
    simp [eq_comm]
  | str s =>
    rw [C81_bytes_and_str_refused lim _ rest (.inr ⟨s, (by rintro rfl; cases h), rfl⟩)]
    simp [eq_comm]

example : (unpackClassArg 5 (.bytes javaMagic)).run tailOfClass ≠
    unpackClass 5 (.bytes ([0xCA, 0xFE, 0xBA, 0xBE] ++ tailOfClass)) := by
  rw [ne_eq, C81_exact 5 _ _ (by decide)]
  rintro (h | h)
  · cases h
  · revert h; decide +kernel

/-! ## C90 -/

/-- C90, for exactly which arguments: those that name the output. -/
theorem C90_exact (H : Hashes) (W : World) (args : CreateArgs) (m : Manifest) (d : Bytes)
    (hm : createManifest H W args = .ok m) (hd : m.getData = .ok d) :
    cliCreate H W args = .ok d ↔ ∃ out, args.manifest = some out ∧ out ≠ [] := by
  rw [cliCreate, hm]
  simp only
  cases hs : args.manifest with
  | none => simp
  | some out => by_cases he : out = [] <;> simp [he, hd]

example : cliCreate idHashes (oneJar []) { content := "x.jar".toList, manifest := some "m".toList } =
    .ok (encodeUtf8 "Manifest-Version: 1.0\n\n".toList) :=
  (C90_exact idHashes (oneJar []) _ emptyManifest _ (by decide +kernel) (by decide +kernel)).2
    ⟨_, rfl, by decide⟩

/-! ## C92 -/

/-- C92, for exactly which sections: those without a colon in their name, and those where another
section happens to give the same answer. -/
theorem C92_exact (m : Manifest) (a b : Str) (s : Section) (h : PyDict.get? m.subs a = some s)
    (hne : s ≠ []) :
    queryLine m (a ++ ':' :: b) = a ++ ':' :: b ++ " = ".toList ++ shownValue (PyDict.get? s b) ↔
      ':' ∉ a ∨ ∃ x y s', a = x ++ ':' :: y ∧ ':' ∉ x ∧ PyDict.get? m.subs x = some s' ∧ s' ≠ [] ∧
        shownValue (PyDict.get? s' (y ++ ':' :: b)) = shownValue (PyDict.get? s b) := by
  constructor
  · intro he
    by_cases hc : ':' ∈ a
    · refine .inr ?_
      obtain ⟨x, y, rfl, hx⟩ := List.eq_append_cons_of_mem hc
      have hs : (x ++ ':' :: y) ++ ':' :: b = x ++ ':' :: (y ++ ':' :: b) := by simp
      rw [hs] at he
      unfold queryLine at he
      rw [splitFirst_some hx] at he
      simp only at he
      cases hg : PyDict.get? m.subs x with
      | none =>
        simp only [hg] at he
        have h1 := List.append_cancel_left (he.trans (List.append_assoc ..))
        exact absurd (congrArg (fun l => l[1]?) h1) (by simp)
      | some s' =>
        simp only [hg] at he
        cases s' with
        | nil =>
          have h1 := List.append_cancel_left (he.trans (List.append_assoc ..))
          exact absurd (congrArg (fun l => l[1]?) h1) (by simp)
        | cons i s' =>
          simp only [orNone_eq] at he
          exact ⟨x, y, i :: s', rfl, hx, hg, by simp, List.append_cancel_left he⟩
    · exact .inl hc
  · rintro (hc | ⟨x, y, s', rfl, hx, hs', hn', he⟩)
    · exact (C92_partial m a b hc).1 s h hne
    · have := (C92_partial m x (y ++ ':' :: b) hx).1 s' hs' hn'
      rw [he] at this
      simpa using this

/-- The section `a:b`, and a section `a` with the attribute `b:Name`. -/
example : queryLine { main := [], subs := [("a:b".toList, [(kName, "1".toList)]),
      ("a".toList, [("b:Name".toList, "1".toList)])], linesep := none } "a:b:Name".toList =
    "a:b:Name = 1".toList := by decide +kernel

/-! ## C94 -/

/-- C94, for exactly which abbreviations of "verify" jarutil verifies: "v". -/
theorem C94_exact (prog c : Str) (rest : List Str) (h : Abbreviates c "verify".toList) :
    jarutilMain (prog :: c :: rest) = (.verify, rest) ↔ c = "v".toList := by
  obtain ⟨_, _, h1, h2, _⟩ := C94_jarutil_partial prog c rest
  constructor
  · intro h3
    apply Classical.byContradiction
    intro h4
    rw [h2 h h4] at h3
    cases h3
  · rintro rfl
    exact h1 ⟨by decide, by decide⟩

example : jarutilMain ["jarutil".toList, "v".toList, "x".toList] = (.verify, ["x".toList]) ∧
    jarutilMain ["jarutil".toList, "ver".toList, "x".toList] = (.usage, []) := by decide +kernel

/-! ## C100 -/

/-- C100, for exactly which classes there is a JSON report, if what is in its head can be read:
those of which no member is shown. -/
theorem C100_exact (E : PrintEnv) (o : InfoArgs) (c : ClassInfo) (name super : Str) (ifs : List PVal)
    (is : List Str) (src sig enc : Option PVal) (sup : PVal)
    (hp : o.classProvides = false) (hr : o.classRequires = false) (hc : o.constpool = false)
    (h1 : c.prettyThis E.lim = .ok name) (h2 : c.getSuper E.lim = .ok sup)
    (h3 : sup.asStr = .ok super) (h4 : c.getInterfaces E.lim = .ok ifs)
    (h5 : classTexts ifs = .ok is)
    (h6 : derefAttr c.attribs c.pool E.lim "SourceFile" = .ok src)
    (h7 : derefAttr c.attribs c.pool E.lim "Signature" = .ok sig)
    (h8 : c.getEnclosingmethod E.str E.lim = .ok enc) :
    (∃ j, simplifyClassinfo E o c = .ok j) ↔
      ∀ m, m ∈ c.fields ∨ m ∈ c.methods → shouldShow o m = false := by
  constructor
  · rintro ⟨j, hj⟩ m hm
    cases hs : shouldShow o m with
    | false => rfl
    | true => exact absurd hj (C100_fails E o c m hm hs j)
  · intro hns
    obtain ⟨j, hj, _⟩ := C100_partial E o c name super ifs is src sig enc sup hp hr hc hns h1 h2 h3 h4 h5
      h6 h7 h8
    exact ⟨j, hj⟩

/-! ## C120 -/

/-- C120, for exactly which JARs the answer is right: those that have a manifest. -/
theorem C120_exact (f : JarFile) (z : Zip) :
    (printManifest f = notPresent ↔ "META-INF/MANIFEST.MF".toList ∉ z.map Prod.fst) ↔
      "META-INF/MANIFEST.MF".toList ∈ z.map Prod.fst := by
  have := not_notPresent f
  simp [this]

example : printManifest { archive := .ok (zipOf false []), zip := .ok [] } ≠ notPresent :=
  not_notPresent _

/-! ## C123 -/

/-- C123, for exactly which archives there is a report: those with data and without an entry of the
empty name. -/
theorem C123_exact (E : PrintEnv) (pct : Nat → Nat → Str) (o : InfoArgs) (f : JarFile) (a : Archive)
    (ha : f.archive = .ok a) :
    (jarReport E pct { zip := true, info := o } f = (zipText pct a, none) ∧
      jarJson E.lim { zip := true, info := o } f = .ok { zip := some (a.exploded, (fileEntries a).length,
        a.entries.length - (fileEntries a).length, fullSize a, packedSize a) }) ↔
      [] ∉ names a ∧ fullSize a ≠ 0 := by
  constructor
  · rintro ⟨_, h⟩
    have h1 : [] ∉ names a := fun hn => by
      rw [(C123_unnamed E pct o f a ha hn).2] at h; cases h
    exact ⟨h1, fun hs => by rw [(C123_empty E pct o f a ha h1 hs).2] at h; cases h⟩
  · rintro ⟨h1, h2⟩
    exact C123_partial E pct o f a ha h1 h2

/-- An archive whose only file is empty. -/
example : ¬ (jarJson listEnv.lim { zip := true }
      { archive := .ok (zipOf false [("a".toList, [])]), zip := .ok [] } = .ok { zip := some (false, 1, 0, 0, 0) }) := by
  decide +kernel

end Javatools
