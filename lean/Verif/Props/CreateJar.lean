import Verif.Props.ManifestCli2
import Verif.Props.Dir
/-
C95: the archive made by `jarutil c`.
-/
namespace Javatools

/-! ### Names of entries -/

/-- A path that names nothing but files and directories below the working directory. -/
def PlainPath (p : List Str) : Prop := p ≠ [] ∧ ∀ n ∈ p, IsName n ∧ '\x00' ∉ n

theorem normComps_names (acc cs : List Str) (h : ∀ n ∈ cs, IsName n) :
    normComps false acc cs = acc.reverse ++ cs := by
  induction cs generalizing acc with
  | nil => simp [normComps]
  | cons c cs ih =>
    have hc := h c (by simp)
    simp only [normComps]
    rw [if_neg (by rintro (e | e); exact hc.1 e; exact hc.2.2.1 e), if_pos (.inl hc.2.2.2),
      ih _ fun n hn => h n (by simp [hn])]
    simp

theorem split_plain {p : List Str} (h : p ≠ []) (hn : ∀ n ∈ p, IsName n) :
    splitAll '/' (slashed p) = p := by
  rcases List.eq_nil_or_concat p with rfl | ⟨q, f, e⟩
  · exact absurd rfl h
  · have e : p = q ++ [f] := by simpa using e
    subst e
    exact splitAll_dirText (fun n hm => (hn n (by simp [hm])).2.1) (hn f (by simp)).2.1

theorem slashed_head {p : List Str} (h : p ≠ []) (hn : ∀ n ∈ p, IsName n) :
    slashed p ≠ [] ∧ (slashed p).head? ≠ some '/' := by
  cases p with
  | nil => exact absurd rfl h
  | cons n p =>
    have h1 := hn n (by simp)
    have : ∃ r, slashed (n :: p) = n ++ r := by
      cases p with
      | nil => exact ⟨[], by simp [slashed]⟩
      | cons m p => exact ⟨_, rfl⟩
    obtain ⟨r, hr⟩ := this
    rw [hr]
    cases n with
    | nil => exact absurd rfl h1.1
    | cons c n =>
      refine ⟨by simp, ?_⟩
      intro e
      simp only [List.cons_append, List.head?_cons, Option.some.injEq] at e
      exact h1.2.1 (by simp [e])

theorem normpath_plain {p : List Str} (h : p ≠ []) (hn : ∀ n ∈ p, IsName n) :
    normpath (slashed p) = slashed p := by
  obtain ⟨h1, h2⟩ := slashed_head h hn
  have h3 : ((slashed p).head? == some '/') = false := by simpa using h2
  unfold normpath
  simp only [h3, split_plain h hn, normComps_names [] p hn, List.reverse_nil, List.nil_append,
    Bool.false_eq_true, if_false]
  rw [if_neg h1]

theorem slashed_chars {p : List Str} {c : Char} (hc : c ≠ '/') (hn : ∀ n ∈ p, c ∉ n) :
    c ∉ slashed p := by
  induction p with
  | nil => simp [slashed]
  | cons n p ih =>
    cases p with
    | nil => simpa [slashed] using hn
    | cons m p =>
      simp only [slashed, List.mem_append, List.mem_cons, not_or]
      exact ⟨hn n (by simp), hc, ih fun x hx => hn x (by simp [hx])⟩

theorem arcname_plain {p : List Str} (h : PlainPath p) (isDir : Bool) :
    arcname (slashed p) isDir = if isDir then slashed p ++ ['/'] else slashed p := by
  have hn : ∀ n ∈ p, IsName n := fun n hm => (h.2 n hm).1
  obtain ⟨h1, h2⟩ := slashed_head h.1 hn
  have hz : '\x00' ∉ slashed p := slashed_chars (by decide) fun n hm => (h.2 n hm).2
  unfold arcname
  rw [normpath_plain h.1 hn]
  have hd : (slashed p).dropWhile (fun c => c = '/') = slashed p := by
    cases hs : slashed p with
    | nil => rfl
    | cons c s =>
      rw [hs] at h2
      rw [List.dropWhile_cons_of_neg]
      simpa using h2
  simp only [hd]
  cases isDir with
  | false => simp only [Bool.false_eq_true, if_false]; exact zipName_id hz
  | true =>
    simp only [if_true]
    exact zipName_id (by simp [hz])

/-! ### The entries below a directory -/

theorem dirAt_dir {m : Str} {s nx : Forest} {p : List Str} :
    DirAt (.dir m s nx) p ↔ p = [m] ∨ (∃ p', p = m :: p' ∧ DirAt s p') ∨ DirAt nx p := by
  constructor
  · intro h
    cases h with
    | here => exact .inl rfl
    | inside _ h => exact .inr (.inl ⟨_, rfl, h⟩)
    | afterDir _ _ h => exact .inr (.inr h)
  · rintro (rfl | ⟨p', rfl, h⟩ | h)
    · exact .here _ _ _
    · exact .inside _ h
    · exact .afterDir _ _ h

theorem dirAt_file {m : Str} {b : Bytes} {t : Int} {nx : Forest} {p : List Str} :
    DirAt (.file m b t nx) p ↔ DirAt nx p := by
  constructor
  · intro h
    cases h with
    | afterFile _ _ _ h => exact h
  · exact .afterFile _ _ _

/-- The directories that a walk meets. -/
def walkDirs (ws : List (List Str × List Str × List (Str × Bytes))) : List (List Str) :=
  ws.flatMap fun w => w.2.1.map fun d => w.1 ++ [d]

theorem mem_walkDirs (F : Forest) (at_ x : List Str) :
    x ∈ walkDirs (F.walk at_) ↔ ∃ p, x = at_ ++ p ∧ DirAt F p := by
  induction F generalizing at_ with
  | nil =>
    simp only [Forest.walk, Forest.walkSubs, walkDirs, Forest.dirNames, List.flatMap_cons,
      List.map_nil, List.flatMap_nil, List.append_nil, List.not_mem_nil, false_iff]
    rintro ⟨p, _, h⟩
    cases h
  | file m b t nx ih =>
    simp only [dirAt_file]
    rw [← ih at_]
    simp [Forest.walk, walkDirs, Forest.dirNames, Forest.walkSubs]
  | dir m s nx ihs ih =>
    have h1 : x ∈ walkDirs ((Forest.dir m s nx).walk at_) ↔
        x = at_ ++ [m] ∨ x ∈ walkDirs (s.walk (at_ ++ [m])) ∨ x ∈ walkDirs (nx.walk at_) := by
      simp only [Forest.walk, walkDirs, Forest.dirNames, Forest.walkSubs, List.flatMap_cons,
        List.map_cons, List.flatMap_append, List.mem_append, List.mem_cons, List.cons_append]
      constructor
      · rintro (h | h | h | h | h) <;> simp only [h, true_or, or_true]
      · rintro (h | (h | h) | h | h) <;> simp only [h, true_or, or_true]
    rw [h1, ihs, ih]
    simp only [dirAt_dir]
    constructor
    · rintro (rfl | ⟨p, rfl, h⟩ | ⟨p, rfl, h⟩)
      · exact ⟨[m], rfl, .inl rfl⟩
      · exact ⟨m :: p, by simp, .inr (.inl ⟨p, rfl, h⟩)⟩
      · exact ⟨p, rfl, .inr (.inr h)⟩
    · rintro ⟨p, rfl, rfl | ⟨p', rfl, h⟩ | h⟩
      · exact .inl rfl
      · exact .inr (.inl ⟨p', by simp, h⟩)
      · exact .inr (.inr ⟨p, rfl, h⟩)

theorem names_of_dir {F : Forest} (hF : F.Ok) {p : List Str} (h : DirAt F p) : ∀ n ∈ p, IsName n := by
  induction h with
  | here n s nx => simpa using hF.1
  | @inside n s p nx _ ih =>
    intro m hm
    rcases List.mem_cons.1 hm with rfl | hm
    · exact hF.1
    · exact ih hF.2.2.1 m hm
  | afterFile n b' t' _ ih => exact ih hF.2.2
  | afterDir n s _ ih => exact ih hF.2.2.2

/-- No name in the tree has a NUL character. -/
def NoNul (F : Forest) : Prop :=
  (∀ p, DirAt F p → ∀ n ∈ p, '\x00' ∉ n) ∧ ∀ p b t, FileAt F p b t → ∀ n ∈ p, '\x00' ∉ n

theorem withSlash_plain {p : List Str} (h : PlainPath p) : withSlash (slashed p) = dirText p := by
  have hl := (slashed_last h.1 fun n hm => (h.2 n hm).1).2
  unfold withSlash
  rw [if_neg hl]
  rcases List.eq_nil_or_concat p with rfl | ⟨q, f, e⟩
  · exact absurd rfl h.1
  · have e : p = q ++ [f] := by simpa using e
    subst e
    rw [slashed_snoc]
    simp [dirText]

theorem dirText_append (p q : List Str) : dirText (p ++ q) = dirText p ++ dirText q := by
  simp [dirText]

/-- Specification: what the argument `e` adds to the archive. -/
def Contributes (W : World) (e n : Str) (b : Bytes) : Prop :=
  match W.node e with
  | .missing => False
  | .file c => n = e ∧ b = c
  | .dir F =>
    (n = e ++ ['/'] ∧ b = []) ∨ (∃ p, DirAt F p ∧ n = e ++ '/' :: slashed p ++ ['/'] ∧ b = []) ∨
      ∃ p t, FileAt F p b t ∧ n = e ++ '/' :: slashed p

theorem mem_writeBelow {p : List Str} (hp : PlainPath p) {F : Forest} (hF : F.Ok) (hz : NoNul F)
    (n : Str) (b : Bytes) :
    (n, b) ∈ writeBelow (slashed p) F ↔
      (∃ q, DirAt F q ∧ n = slashed p ++ '/' :: slashed q ++ ['/'] ∧ b = []) ∨
        ∃ q t, FileAt F q b t ∧ n = slashed p ++ '/' :: slashed q := by
  have hpn : ∀ n ∈ p, IsName n := fun n hm => (hp.2 n hm).1
  have hne := (slashed_head hp.1 hpn).1
  have hjoin : ∀ (q : List Str) (f : Str), (∀ n ∈ q, IsName n) → IsName f →
      pathJoin (q.foldl pathJoin (slashed p)) f = slashed (p ++ (q ++ [f])) := by
    intro q f hq hf
    obtain ⟨h1, h2⟩ := foldl_join hne hq
    rw [pathJoin_plain h1 hf.2.1, h2, withSlash_plain hp, ← List.append_assoc, slashed_snoc,
      dirText_append]
  have hplain : ∀ q : List Str, (∀ n ∈ q, IsName n ∧ '\x00' ∉ n) → PlainPath (p ++ q) := by
    intro q hq
    refine ⟨by simp [hp.1], fun n hn => ?_⟩
    rcases List.mem_append.1 hn with h | h
    · exact hp.2 n h
    · exact hq n h
  have hdirs : ∀ w ∈ F.walk [], ∀ d ∈ w.2.1, DirAt F (w.1 ++ [d]) := by
    intro w hw d hd
    obtain ⟨q, e, h⟩ := (mem_walkDirs F [] (w.1 ++ [d])).1
      (List.mem_flatMap.2 ⟨w, hw, List.mem_map.2 ⟨d, hd, rfl⟩⟩)
    rw [List.nil_append] at e
    exact e ▸ h
  have hsplit : (n, b) ∈ writeBelow (slashed p) F ↔
      (∃ w ∈ F.walk [], ∃ d ∈ w.2.1, n = arcname (pathJoin (w.1.foldl pathJoin (slashed p)) d) true ∧
        b = []) ∨ ∃ x, (x, b) ∈ dirItems (slashed p) F 0 ∧ n = arcname x false := by
    simp only [writeBelow, dirItems, List.mem_flatMap, List.mem_append, List.mem_map, Prod.mk.injEq,
      List.drop_zero]
    constructor
    · rintro ⟨w, hw, ⟨d, hd, rfl, rfl⟩ | ⟨g, hg, rfl, rfl⟩⟩
      · exact .inl ⟨w, hw, d, hd, rfl, rfl⟩
      · exact .inr ⟨_, ⟨w, hw, g, hg, rfl, rfl⟩, rfl⟩
    · rintro (⟨w, hw, d, hd, rfl, rfl⟩ | ⟨x, ⟨w, hw, g, hg, rfl, rfl⟩, rfl⟩)
      · exact ⟨w, hw, .inl ⟨d, hd, rfl, rfl⟩⟩
      · exact ⟨w, hw, .inr ⟨g, hg, rfl, rfl⟩⟩
  rw [hsplit]
  apply or_congr
  · constructor
    · rintro ⟨w, hw, d, hd, rfl, rfl⟩
      have hat := hdirs w hw d hd
      have hn := names_of_dir hF hat
      refine ⟨_, hat, ?_, rfl⟩
      rw [hjoin _ _ (fun m hm => hn m (by simp [hm])) (hn d (by simp)),
        arcname_plain (hplain _ fun m hm => ⟨hn m hm, hz.1 _ hat m hm⟩),
        slashed_append p _ hp.1 (by simp)]
      simp
    · rintro ⟨q, hat, rfl, rfl⟩
      have hm := (mem_walkDirs F [] q).2 ⟨q, rfl, hat⟩
      obtain ⟨w, hw, hd'⟩ := List.mem_flatMap.1 hm
      obtain ⟨d, hd, rfl⟩ := List.mem_map.1 hd'
      have hn := names_of_dir hF hat
      refine ⟨w, hw, d, hd, ?_, rfl⟩
      rw [hjoin _ _ (fun m hm => hn m (by simp [hm])) (hn d (by simp)),
        arcname_plain (hplain _ fun m hm => ⟨hn m hm, hz.1 _ hat m hm⟩),
        slashed_append p _ hp.1 (by simp)]
      simp
  · constructor
    · rintro ⟨x, hx, rfl⟩
      obtain ⟨q, f, t, hat, rfl⟩ := (mem_dirItems hne hF 0 x b).1 hx
      have hn := names_of_path hF hat
      refine ⟨_, t, hat, ?_⟩
      rw [List.drop_zero, withSlash_plain hp, ← dirText_append, ← slashed_snoc, List.append_assoc,
        arcname_plain (hplain _ fun m hm => ⟨hn m hm, hz.2 _ _ _ hat m hm⟩),
        slashed_append p _ hp.1 (by simp)]
      simp
    · rintro ⟨q, t, hat, rfl⟩
      obtain ⟨q, f, rfl⟩ : ∃ q' f, q = q' ++ [f] := by
        rcases List.eq_nil_or_concat q with h | ⟨q', f, h⟩
        · exact absurd h hat.ne_nil
        · exact ⟨q', f, by simpa using h⟩
      have hn := names_of_path hF hat
      refine ⟨_, (mem_dirItems hne hF 0 _ b).2 ⟨q, f, t, hat, rfl⟩, ?_⟩
      rw [List.drop_zero, withSlash_plain hp, ← dirText_append, ← slashed_snoc, List.append_assoc,
        arcname_plain (hplain _ fun m hm => ⟨hn m hm, hz.2 _ _ _ hat m hm⟩),
        slashed_append p _ hp.1 (by simp)]
      simp

/-- What the arguments have to be: existing files and directories below the working directory. -/
structure PlainArg (W : World) (e : Str) : Prop where
  path : ∃ p, e = slashed p ∧ PlainPath p
  present : W.node e ≠ .missing
  tree : ∀ F, W.node e = .dir F → F.Ok ∧ NoNul F

theorem writeEntries_spec {W : World} {es : List Str} (h : ∀ e ∈ es, PlainArg W e) :
    ∃ rest, writeEntries W es = .ok rest ∧ ∀ n b, (n, b) ∈ rest ↔ ∃ e ∈ es, Contributes W e n b := by
  induction es with
  | nil => exact ⟨[], rfl, by simp⟩
  | cons e es ih =>
    obtain ⟨rest, h1, h2⟩ := ih fun x hx => h x (by simp [hx])
    obtain ⟨⟨p, rfl, hp⟩, hpres, htree⟩ := h e (by simp)
    simp only [writeEntries, h1, List.mem_cons, exists_eq_or_imp]
    cases hnode : W.node (slashed p) with
    | missing => exact absurd hnode hpres
    | file c =>
      refine ⟨_, rfl, fun n b => ?_⟩
      rw [List.mem_cons, h2]
      unfold Contributes
      simp only [hnode, Prod.mk.injEq, arcname_plain hp, Bool.false_eq_true, if_false]
    | dir F =>
      obtain ⟨hF, hz⟩ := htree F hnode
      refine ⟨_, rfl, fun n b => ?_⟩
      rw [List.mem_cons, List.mem_append, h2, mem_writeBelow hp hF hz]
      conv => rhs; arg 1; unfold Contributes
      simp only [hnode, Prod.mk.injEq, arcname_plain hp, if_true, or_assoc]

/-- C95: the archive has the directory META-INF, an empty manifest, and exactly the given files and
what is found in the given directories. -/
theorem C95_exact (W : World) (es : List Str) (h : ∀ e ∈ es, PlainArg W e) :
    ∃ d rest, createJar W es =
        .ok (("META-INF/".toList, []) :: ("META-INF/MANIFEST.MF".toList, d) :: rest) ∧
      d = encodeUtf8 "Manifest-Version: 1.0\n\n".toList ∧
      ∀ n b, (n, b) ∈ rest ↔ ∃ e ∈ es, Contributes W e n b := by
  obtain ⟨rest, h1, h2⟩ := writeEntries_spec h
  have hd : emptyManifest.getData = .ok (encodeUtf8 "Manifest-Version: 1.0\n\n".toList) := by
    decide +kernel
  refine ⟨_, rest, ?_, rfl, h2⟩
  simp only [createJar, hd, h1]
  rfl

theorem writeEntries_missing {W : World} {es : List Str} (h : ∃ e ∈ es, W.node e = .missing) :
    writeEntries W es = .error eFileNotFound := by
  induction es with
  | nil => simp at h
  | cons e es ih =>
    simp only [writeEntries]
    by_cases he : ∃ x ∈ es, W.node x = .missing
    · rw [ih he]
      split <;> rfl
    · obtain ⟨x, hx, hm⟩ := h
      rcases List.mem_cons.1 hx with rfl | hx
      · rw [hm]
      · exact absurd ⟨x, hx, hm⟩ he

/-- C95: a missing argument is an error. -/
theorem C95_missing (W : World) (es : List Str) (h : ∃ e ∈ es, W.node e = .missing) :
    createJar W es = .error eFileNotFound := by
  have hd : emptyManifest.getData = .ok (encodeUtf8 "Manifest-Version: 1.0\n\n".toList) := by
    decide +kernel
  simp only [createJar, hd, writeEntries_missing h]

/-- C95: the new archive has a manifest that can be read, unless an argument brings one. -/
theorem C95_manifest (W : World) (es : List Str) (h : ∀ e ∈ es, PlainArg W e)
    (hm : ∀ e ∈ es, ∀ b, ¬ Contributes W e "META-INF/MANIFEST.MF".toList b) :
    ∃ z m, createJar W es = .ok z ∧ loadFromJar z = .ok m ∧
      m.main = [("Manifest-Version".toList, "1.0".toList)] ∧ m.subs = [] ∧
      m.linesep = some "\n".toList := by
  obtain ⟨d, rest, h1, rfl, h2⟩ := C95_exact W es h
  refine ⟨_, { emptyManifest with linesep := some "\n".toList }, h1, ?_, rfl, rfl, rfl⟩
  have hread : zipRead (("META-INF/".toList, []) :: ("META-INF/MANIFEST.MF".toList,
      encodeUtf8 "Manifest-Version: 1.0\n\n".toList) :: rest) sManifestMf =
      .ok (encodeUtf8 "Manifest-Version: 1.0\n\n".toList) := by
    unfold zipRead
    rw [List.reverse_cons, List.reverse_cons, get?_append, get?_append]
    have hnone : PyDict.get? rest.reverse sManifestMf = none := by
      rw [PyDict.get?_eq_none_iff]
      intro hk
      simp only [PyDict.keys, List.map_reverse, List.mem_reverse, List.mem_map] at hk
      obtain ⟨⟨n, b⟩, hb, e⟩ := hk
      simp only at e
      subst e
      obtain ⟨e, he, hc⟩ := (h2 _ b).1 hb
      exact hm e he b hc
    rw [hnone]
    have : PyDict.get? [("META-INF/MANIFEST.MF".toList, encodeUtf8 "Manifest-Version: 1.0\n\n".toList)]
      sManifestMf = some (encodeUtf8 "Manifest-Version: 1.0\n\n".toList) := by decide +kernel
    rw [this]
    rfl
  unfold loadFromJar
  rw [if_neg, hread]
  · simp only
    decide +kernel
  · exact fun hn => hn (List.mem_cons_of_mem _ (List.mem_cons_self ..))

/-- The directory of `oneDir`. -/
example : createJar oneDir ["d".toList] = .ok [("META-INF/".toList, []),
    ("META-INF/MANIFEST.MF".toList, encodeUtf8 "Manifest-Version: 1.0\n\n".toList),
    ("d/".toList, []), ("d/s/".toList, []), ("d/b.txt".toList, [1]), ("d/s/c.txt".toList, [2])] := by
  decide +kernel

/-- The example fulfils the hypothesis. -/
example : PlainArg oneDir "d".toList := by
  refine ⟨⟨["d".toList], rfl, by simp, by simp [IsName]⟩, by simp [oneDir], ?_⟩
  intro F hF
  have : F = _ := (Node.dir.inj (hF.symm.trans rfl : Node.dir F = _))
  subst this
  refine ⟨oneDir_ok, ?_, ?_⟩
  · intro p hp n hn
    simp only [dirAt_file, dirAt_dir] at hp
    rcases hp with rfl | ⟨p', rfl, h⟩ | h
    · simp only [List.mem_singleton] at hn
      subst hn; decide
    · cases h
    · cases h
  · intro p b t hp n hn
    cases hp with
    | here =>
      simp only [List.mem_singleton] at hn
      subst hn; decide
    | afterFile _ _ _ h =>
      cases h with
      | inside _ h =>
        cases h with
        | here =>
          simp only [List.mem_cons, List.not_mem_nil, or_false] at hn
          rcases hn with rfl | rfl <;> decide
        | afterFile _ _ _ h => cases h
      | afterDir _ _ h => cases h

end Javatools
