import Verif.Props.DistJson
import Verif.Props.DistLoud
/-!
C63, C77, C177: for exactly which distributions the status of a comparison is 1, which patterns apply to a file, and
which files the JSON report lists.
-/

namespace Javatools

open Spec Change

/-- A file counts: it is in one distribution only; or it is a text file whose lines differ, not only in the
white space that is to be ignored; or it is a manifest, and a section of it changed in an attribute that is not to be
ignored; or it is a class or a JAR, and comparing it alone has status 1. A file of another kind never counts, and
only of text files it does not matter that the directory comparison takes them for the same. -/
def CountsFile (E : DistEnv) (l r : Forest) (o : DiffOpts) (f : Str) : Event → DistKind → Prop
  | .left, _ => True
  | .right, _ => True
  | .same, .text | .diff, .text => ∃ ls ms, TextFile l f ls ∧ TextFile r f ms ∧ ls ≠ ms ∧
      (o.attr "ignore_trailing_whitespace" = true → ¬ EqualText ls ms)
  | .diff, .manifest => ∃ x y a b, readEntry l f = .ok x ∧ readEntry r f = .ok y ∧
      emptyManifest.parse x = .ok a ∧ emptyManifest.parse y = .ok b ∧ o.attr "ignore_manifest" = false ∧
      ∃ t, Expected a b t ∧ LineChanged a b t ∧ ¬ LineIgnored a b o t
  | .diff, .cls => ∃ x y a b, readEntry l f = .ok x ∧ readEntry r f = .ok y ∧
      unpackClass E.lim (.bytes x) = .ok a ∧ unpackClass E.lim (.bytes y) = .ok b ∧
      classDiffStatus E.T E.lim E.depth o.flags a b = .ok 1
  | .diff, .jar => ∃ x y a b, readEntry l f = .ok x ∧ readEntry r f = .ok y ∧
      E.openJar x = .ok a ∧ E.openJar y = .ok b ∧ jarDiffStatus E.toJarEnv a b o = .ok 1
  | _, _ => False

theorem bothFiles_inv {α : Type} {g : Bytes → Res α} {l r : Forest} {f : Str} {p : α × α}
    (h : bothFiles g l r f = .ok p) :
    ∃ x y, readEntry l f = .ok x ∧ readEntry r f = .ok y ∧ g x = .ok p.1 ∧ g y = .ok p.2 := by
  unfold bothFiles at h
  split at h
  · cases h
  split at h
  · cases h
  split at h
  · cases h
  split at h
  · cases h
  cases h
  exact ⟨_, _, ‹_›, ‹_›, ‹_›, ‹_›⟩

theorem raised_inv {α : Type} {g : Res α} {hd : Hdr DiffOpts} {b : Bool} {k : α → List (Change DiffOpts)}
    {c : Change DiffOpts} (h : Change.check (.super hd none b none (orRaise (g.map k))) = .ok c) :
    ∃ a, g = .ok a ∧ Change.check (.super hd none b none (k a)) = .ok c := by
  cases g with
  | error e => simp [Except.map, orRaise, raising, Change.check, Change.checkAll] at h
  | ok a => exact ⟨a, rfl, h⟩

/-- What was checked could be read. -/
theorem content_inv {α : Type} {g : Res α} {name label : String} {ign : IgnoreRule DiffOpts} {f : Str} {b : Bool}
    {k : α → List (Change DiffOpts)} {c : Change DiffOpts}
    (h : (distContent name label ign f b (orRaise (g.map k))).check = .ok c) :
    ∃ a, g = .ok a ∧ (distContent name label ign f b (k a)).check = .ok c :=
  raised_inv h

theorem only_inv {hd : Hdr DiffOpts} {b : Bool} {x c : Change DiffOpts}
    (h : Change.check (.super hd none b none [x]) = .ok c) : ∃ d, x.check = .ok d := by
  cases hx : x.check with
  | ok d => exact ⟨d, rfl⟩
  | error e => simp [Change.check, Change.checkAll, hx] at h

theorem single_inv {name label : String} {ign : IgnoreRule DiffOpts} {f : Str} {b : Bool} {x c : Change DiffOpts}
    (h : (distContent name label ign f b [x]).check = .ok c) : ∃ d, x.check = .ok d :=
  only_inv h

/-- A checked file is a change that is not ignored exactly if no pattern matches it and it counts. -/
theorem counts_iff (E : DistEnv) (ho : IsSetOrder E.order) (l r : Forest) (shallow : Bool) (o : DiffOpts)
    (ev : Event) (f : Str) (k : DistKind) (hk : DistKindOf shallow f k) (c : Change DiffOpts)
    (hc : (distEntryChange E l r shallow (ev, f)).check = .ok c) :
    (c.isChange = true ∧ c.isIgnored o = false) ↔ fnmatches f o.filenames = false ∧ CountsFile E l r o f ev k := by
  have hone : ∀ (hev : ev = .left ∨ ev = .right), (c.isChange = true ∧ c.isIgnored o = false) ↔
      fnmatches f o.filenames = false := by
    intro hev
    obtain ⟨c', h1, h2, h3⟩ := C74_checked_one_sided E l r shallow ev f hev
    rw [hc, Except.ok.injEq] at h1
    subst h1
    have := h3 o
    cases h4 : c.isIgnored o <;> cases h5 : fnmatches f o.filenames <;> simp_all
  have hno : ∀ c', (distEntryChange E l r shallow (ev, f)).check = .ok c' → c'.isChange = false →
      c.isChange = false := by
    intro c' h h2
    rw [hc, Except.ok.injEq] at h
    rwa [h]
  have htext : ∀ (hev : ev = .diff ∨ ev = .same), DistKindOf shallow f .text →
      ((c.isChange = true ∧ c.isIgnored o = false) ↔ fnmatches f o.filenames = false ∧
        ∃ ls ms, TextFile l f ls ∧ TextFile r f ms ∧ ls ≠ ms ∧
          (o.attr "ignore_trailing_whitespace" = true → ¬ EqualText ls ms)) := by
    intro hev hk
    have key : ∀ ls ms, TextFile l f ls → TextFile r f ms → ((c.isChange = true ∧ c.isIgnored o = false) ↔
        fnmatches f o.filenames = false ∧ ls ≠ ms ∧
          (o.attr "ignore_trailing_whitespace" = true → ¬ EqualText ls ms)) := by
      intro ls ms hls hms
      obtain ⟨c', h1, h2, h3⟩ := C64_partial E l r shallow ev hev f hk ls ms hls hms
      rw [hc, Except.ok.injEq] at h1
      subst h1
      rw [h2, ← Bool.not_eq_true (Change.isIgnored o c), h3 o, not_or, Bool.not_eq_true, not_and]
      constructor
      · rintro ⟨a, b, c⟩; exact ⟨b, a, c⟩
      · rintro ⟨a, b, c⟩; exact ⟨b, a, c⟩
    have hread : ∃ ls ms, TextFile l f ls ∧ TextFile r f ms := by
      rw [distEntryChange_eq E l r shallow ev f _ hk] at hc
      have hobj : ∃ b, distObject E l r f ev .text = distTextChange l r f b := by
        rcases hev with rfl | rfl
        · exact ⟨true, rfl⟩
        · exact ⟨false, rfl⟩
      obtain ⟨b, hb⟩ := hobj
      rw [hb] at hc
      unfold distTextChange distContent at hc
      cases ha : readText l f with
      | error e => rw [ha] at hc; simp [orRaise, raising, Change.check, Change.checkAll] at hc
      | ok s =>
      cases hb : readText r f with
      | error e => rw [ha, hb] at hc; simp [orRaise, raising, Change.check, Change.checkAll] at hc
      | ok t =>
      obtain ⟨s', ls, h1, h2, -⟩ := textFile_of_read ha
      obtain ⟨t', ms, h3, h4, -⟩ := textFile_of_read hb
      exact ⟨ls, ms, ⟨s', h1, h2⟩, ⟨t', h3, h4⟩⟩
    obtain ⟨ls, ms, hls, hms⟩ := hread
    constructor
    · intro h
      obtain ⟨h1, h2, h3⟩ := (key ls ms hls hms).1 h
      exact ⟨h1, ls, ms, hls, hms, h2, h3⟩
    · rintro ⟨h1, ls, ms, hls, hms, h2, h3⟩
      exact (key ls ms hls hms).2 ⟨h1, h2, h3⟩
  have hfalse : c.isChange = false → ((c.isChange = true ∧ c.isIgnored o = false) ↔
      fnmatches f o.filenames = false ∧ False) := by
    intro h
    simp [h]
  cases ev with
  | left => simpa [CountsFile] using hone (.inl rfl)
  | right => simpa [CountsFile] using hone (.inr rfl)
  | same =>
    by_cases ht : k = .text
    · subst ht
      exact htext (.inr rfl) hk
    · obtain ⟨c', h1, h2⟩ := same_check E l r shallow f k hk ht
      have := hfalse (hno c' h1 h2)
      cases k with
      | text => exact absurd rfl ht
      | _ => exact this
  | diff =>
    cases k with
    | text => exact htext (.inl rfl) hk
    | other =>
      obtain ⟨c', h1, h2⟩ := C63_other_lost E l r shallow .diff f (.inl rfl) hk
      exact hfalse (hno c' h1 h2)
    | manifest =>
      have hc' := hc
      rw [distEntryChange_eq E l r shallow .diff f _ hk] at hc'
      change (distManifestChange E l r f true).check = .ok c at hc'
      unfold distManifestChange at hc'
      rw [if_pos rfl] at hc'
      obtain ⟨⟨a, b⟩, hab, hcc⟩ := content_inv hc'
      obtain ⟨x, y, hx, hy, ha, hb⟩ := bothFiles_inv hab
      obtain ⟨d, hd⟩ := single_inv hcc
      obtain ⟨c', h1, h2, h3⟩ := child_check "DistManifestChange" "Distributed Manifest" f _ _ hd
      rw [hcc, Except.ok.injEq] at h1
      subst h1
      have hig := C68_ignored E.order E.text a b ho (C68_parsed _ _ ha).1 (C68_parsed _ _ hb).1 d hd o
      obtain ⟨d', hd', -, hch, -⟩ := C68_report E.order E.text a b ho (C68_parsed _ _ ha).1 (C68_parsed _ _ hb).1
      rw [hd, Except.ok.injEq] at hd'
      subst hd'
      have hdch : (∃ t, Expected a b t ∧ LineChanged a b t) → d.isChange = true := by
        rintro ⟨t, h4, h5⟩
        rw [hch]
        cases t with
        | main => exact .inl h5
        | shared s u v => exact .inr ⟨s, by rw [h4.1, h4.2]; exact fun e => h5 (Option.some.inj e)⟩
        | removed s u => exact .inr ⟨s, by rw [h4.1, h4.2]; simp⟩
        | added s u => exact .inr ⟨s, by rw [h4.1, h4.2]; simp⟩
      rw [Bool.eq_false_iff, ne_eq, h3 o, h2]
      show _ ↔ _ ∧ ∃ x' y' a' b', _
      constructor
      · rintro ⟨e1, e2⟩
        rw [not_or, not_and] at e2
        have e3 := e2.2 e1
        rw [hig, not_or, not_and] at e3
        have e4 := e3.2 e1
        refine ⟨by simpa using e2.1, x, y, a, b, hx, hy, ha, hb, by simpa using e3.1, ?_⟩
        refine Classical.byContradiction fun hn => e4 fun t h1 h2 => Classical.byContradiction fun h3 => ?_
        exact hn ⟨t, h1, h2, h3⟩
      · rintro ⟨e1, x', y', a', b', hx', hy', ha', hb', e2, t, e3, e4, e5⟩
        rw [hx, Except.ok.injEq] at hx'
        rw [hy, Except.ok.injEq] at hy'
        subst hx' hy'
        rw [ha, Except.ok.injEq] at ha'
        rw [hb, Except.ok.injEq] at hb'
        subst ha' hb'
        refine ⟨hdch ⟨t, e3, e4⟩, ?_⟩
        rw [hig, e1, e2]
        rintro (h | ⟨_, h | ⟨_, h⟩⟩)
        · cases h
        · cases h
        · exact e5 (h t e3 e4)
    | cls =>
      have hc' := hc
      rw [distEntryChange_eq E l r shallow .diff f _ hk] at hc'
      change (distClassChange E l r f true).check = .ok c at hc'
      unfold distClassChange at hc'
      rw [if_pos rfl] at hc'
      obtain ⟨⟨a, b⟩, hab, hcc⟩ := content_inv hc'
      obtain ⟨x, y, hx, hy, ha, hb⟩ := bothFiles_inv hab
      obtain ⟨d0, hd0⟩ := single_inv hcc
      rw [Change.comap_check] at hd0
      cases hd : (javaClassChange E.T E.lim E.depth a b).check with
      | error e => rw [hd] at hd0; cases hd0
      | ok d =>
      obtain ⟨c', h1, h2, h3⟩ := C63_class E l r f shallow hk x y a b d hx hy ha hb hd
      rw [hc, Except.ok.injEq] at h1
      subst h1
      have hst : classDiffStatus E.T E.lim E.depth o.flags a b = .ok 1 ↔
          d.isChange = true ∧ d.isIgnored o.flags = false := by
        unfold classDiffStatus
        rw [hd]
        show Except.ok _ = Except.ok _ ↔ _
        rw [Except.ok.injEq]
        exact exit_one_iff o.flags d
      rw [Bool.eq_false_iff, ne_eq, h3 o, h2]
      show _ ↔ _ ∧ ∃ x' y' a' b', _
      constructor
      · rintro ⟨e1, e2⟩
        rw [not_or, not_and] at e2
        exact ⟨by simpa using e2.1, x, y, a, b, hx, hy, ha, hb, hst.2 ⟨e1, by simpa using e2.2 e1⟩⟩
      · rintro ⟨e1, x', y', a', b', hx', hy', ha', hb', e2⟩
        rw [hx, Except.ok.injEq] at hx'
        rw [hy, Except.ok.injEq] at hy'
        subst hx' hy'
        rw [ha, Except.ok.injEq] at ha'
        rw [hb, Except.ok.injEq] at hb'
        subst ha' hb'
        obtain ⟨e3, e4⟩ := hst.1 e2
        refine ⟨e3, ?_⟩
        rw [e1, e4]
        simp
    | jar =>
      have hc' := hc
      rw [distEntryChange_eq E l r shallow .diff f _ hk] at hc'
      change (distJarChange E l r f true).check = .ok c at hc'
      unfold distJarChange at hc'
      rw [if_pos rfl] at hc'
      obtain ⟨⟨a, b⟩, hab, hcc⟩ := content_inv hc'
      obtain ⟨x, y, hx, hy, ha, hb⟩ := bothFiles_inv hab
      obtain ⟨h1, h2⟩ := C63_jar E l r f shallow hk x y a b hx hy ha hb o
      cases hs : jarDiffStatus E.toJarEnv a b o with
      | error e => rw [h1 e hs] at hc; cases hc
      | ok st =>
      obtain ⟨c', h3, h4⟩ := h2 st hs
      rw [hc, Except.ok.injEq] at h3
      subst h3
      rw [h4]
      show _ ↔ _ ∧ ∃ x' y' a' b', _
      constructor
      · rintro ⟨rfl, e2⟩
        exact ⟨by simpa using e2, x, y, a, b, hx, hy, ha, hb, hs⟩
      · rintro ⟨e1, x', y', a', b', hx', hy', ha', hb', e2⟩
        rw [hx, Except.ok.injEq] at hx'
        rw [hy, Except.ok.injEq] at hy'
        subst hx' hy'
        rw [ha, Except.ok.injEq] at ha'
        rw [hb, Except.ok.injEq] at hb'
        subst ha' hb'
        rw [hs, Except.ok.injEq] at e2
        exact ⟨e2, by simp [e1]⟩

/-- C63, for exactly which distributions: a comparison that ends has status 1 exactly if some file that no
pattern of `--ignore-filenames` matches counts, and else 0. -/
theorem C63_exact (E : DistEnv) (ho : IsSetOrder E.order) (l r : Forest) (shallow : Bool) (o : DiffOpts) (st : Nat)
    (h : distDiffStatus E l r shallow o = .ok st) :
    (st = 0 ∨ st = 1) ∧
    (st = 1 ↔ ∃ ev f k, (ev, f) ∈ (compareDirs l r).1 ∧ DistKindOf shallow f k ∧
      fnmatches f o.filenames = false ∧ CountsFile E l r o f ev k) := by
  obtain ⟨_, h2, h3, h4⟩ := C74_status E l r shallow o st h
  refine ⟨h3, h4.trans ?_⟩
  constructor
  · rintro ⟨⟨ev, f⟩, hp, c, hc, h5⟩
    obtain ⟨k, hk, _⟩ := distKind_unique shallow f
    exact ⟨ev, f, k, hp, hk, (counts_iff E ho l r shallow o ev f k hk c hc).1 h5⟩
  · rintro ⟨ev, f, k, hp, hk, h5⟩
    obtain ⟨c, hc⟩ := h2 _ hp
    exact ⟨(ev, f), hp, c, hc, (counts_iff E ho l r shallow o ev f k hk c hc).2 h5⟩

/-- A file in one distribution only counts, but not if a pattern matches its name. -/
example :
    distDiffStatus demoDist (textDist [97]) .nil false (jarOpts [] []) = .ok 1 ∧
    distDiffStatus demoDist (textDist [97]) .nil false { jarOpts [] [] with filenames := ["a*".toList] } = .ok 0 ∧
    distDiffStatus demoDist (textDist [97]) (textDist [97, 32]) false (jarOpts [] []) = .ok 1 ∧
    distDiffStatus demoDist (textDist [97]) (textDist [97, 32]) true (jarOpts [] []) = .ok 0 := by
  decide +kernel

/-- The text file with another line counts. -/
example : ∃ ev f k, (ev, f) ∈ (compareDirs (textDist [97]) (textDist [97, 32])).1 ∧ DistKindOf false f k ∧
    fnmatches f (jarOpts [] []).filenames = false ∧
    CountsFile demoDist (textDist [97]) (textDist [97, 32]) (jarOpts [] []) f ev k :=
  (C63_exact demoDist dedup_isSetOrder _ _ false _ 1 (by decide +kernel)).2.1 rfl

/-! ### C77 -/

/-- C77, exactly which patterns apply: a file that counts is ignored if and only if a pattern matches its path, with
`./` in front if it is in both distributions and not in a directory. -/
theorem C77_exact (E : DistEnv) (ho : IsSetOrder E.order) (l r : Forest) (shallow : Bool) (o : DiffOpts) (ev : Event)
    (p : List Str) (f : Str) (k : DistKind) (c : Change DiffOpts)
    (h : (distEntryChange E l r shallow (eventText [] (ev, p))).check = .ok c)
    (hleft : ev = .left → f = slashed p) (hright : ev = .right → f = slashed p)
    (hboth : ev = .diff ∨ ev = .same → f = commonName p)
    (hk : DistKindOf shallow f k) (hcount : CountsFile E l r o f ev k) :
    c.isIgnored o = fnmatches f o.filenames := by
  have he : eventText [] (ev, p) = (ev, f) := by
    cases ev with
    | left => rw [hleft rfl]; rfl
    | right => rw [hright rfl]; rfl
    | diff => rw [hboth (.inl rfl), commonName_eq (.inl rfl)]
    | same => rw [hboth (.inr rfl), commonName_eq (.inr rfl)]
  rw [he] at h
  cases hf : fnmatches f o.filenames with
  | true => exact C77_name E l r shallow o ev f c h hf
  | false => exact ((counts_iff E ho l r shallow o ev f k hk c h).2 ⟨hf, hcount⟩).2

/-- The text file `a.txt` of both distributions counts; `a.txt` does not apply to it, `./a.txt` does. -/
example : ∃ c, (distEntryChange demoDist (textDist [97]) (textDist [97, 98]) false
      (eventText [] (.diff, ["a.txt".toList]))).check = .ok c ∧
    c.isIgnored { jarOpts [] [] with filenames := ["a.txt".toList] } = false ∧
    c.isIgnored { jarOpts [] [] with filenames := ["./a.txt".toList] } = true := by
  have hk : DistKindOf false "./a.txt".toList .text := ⟨rfl, ".txt", by decide, "./a".toList, by decide +kernel⟩
  obtain ⟨c, hc⟩ : ∃ c, (distEntryChange demoDist (textDist [97]) (textDist [97, 98]) false
      (eventText [] (.diff, ["a.txt".toList]))).check = .ok c := ⟨_, rfl⟩
  have hx : ∀ fs, c.isIgnored { jarOpts [] [] with filenames := fs } = fnmatches "./a.txt".toList fs := fun fs =>
    C77_exact demoDist dedup_isSetOrder _ _ _ _ .diff ["a.txt".toList] "./a.txt".toList .text c hc nofun nofun
      (fun _ => by decide +kernel) hk
      ⟨[['a']], [['a', 'b']], ⟨['a'], by decide +kernel, .last _ (by decide)⟩,
        ⟨['a', 'b'], by decide +kernel, .last _ (by decide)⟩, by decide, fun h =>
          absurd (show (jarOpts [] []).attr "ignore_trailing_whitespace" = true from h) (by decide +kernel)⟩
  exact ⟨c, hc, by rw [hx]; decide +kernel, by rw [hx]; decide +kernel⟩

/-! ### C177 -/

/-- C177, exactly what is listed: without the options, the files that no pattern of `--ignore-filenames` matches and
that count, each once. -/
theorem C177_exact (E : DistEnv) (ho : IsSetOrder E.order) (l r : Forest) (shallow : Bool) (hl : l.Ok) (hr : r.Ok)
    (hc : NoClash l r) (hs : ∀ p b c t, FileAt l p b t → FileAt r p c t → b.length = c.length → b = c)
    (c : Change DiffOpts) (o : DiffOpts) (h : (distChange E l r shallow).check = .ok c) :
    ∃ (evs : List (Event × Str)) (ps : List (Event × List Str)) (kind : Str → DistKind) (shown : List (Event × Str)),
      Reports SameContent l r evs ps ∧ (∀ f, DistKindOf shallow f (kind f)) ∧ (shown.map Prod.snd).Nodup ∧
      ((toJson o ⟨false, false⟩ c).kids.map Json.item).Perm (shown.map fun p => fileItem p.1 (kind p.2) p.2) ∧
      ∀ ev f, (ev, f) ∈ shown ↔ (ev, f) ∈ evs ∧ fnmatches f o.filenames = false ∧ CountsFile E l r o f ev (kind f) := by
  obtain ⟨evs, ps, cs, h1, h2, h3, h4⟩ := dist_listing E l r shallow hl hr hc hs c h
  obtain ⟨kind, hkind⟩ : ∃ kind : Str → DistKind, ∀ n, DistKindOf shallow n (kind n) :=
    ⟨fun n => Classical.choose (distKind_unique shallow n),
      fun n => (Classical.choose_spec (distKind_unique shallow n)).1⟩
  have hitem : ∀ s, ∀ p ∈ evs, (toJson o s (distEntryChange E l r shallow p).checked).item =
      fileItem p.1 (kind p.2) p.2 := by
    intro s p hp
    obtain ⟨e1, e2, e3, _⟩ := C74_entry E l r shallow p.1 p.2 (kind p.2) (hkind p.2)
    rw [(toJson_item _ _ _).1, check_hdr _ _ (h3 p hp), e1, e2, e3, file_item (event_named hl hr h1 hp)]
  refine ⟨evs, ps, kind, evs.filter fun p => (distEntryChange E l r shallow p).checked.loud o, h1, hkind, ?_, ?_, ?_⟩
  · have := reports_names hl hr h1
    exact this.sublist (List.Sublist.map _ List.filter_sublist)
  · have hvis : ∀ x : Change DiffOpts, Visible o ⟨false, false⟩ x = x.loud o := by
      intro x
      simp [Visible, Change.loud]
    rw [h4, show (cs.map checked).filter (Visible o ⟨false, false⟩) = (cs.map checked).filter (Change.loud o) from
      List.filter_congr fun x _ => hvis x]
    refine ((((h2.map _).filter _).map _).map _).trans (List.Perm.of_eq ?_)
    rw [List.map_map, List.filter_map, List.map_map, List.filter_map, List.map_map]
    exact List.map_congr_left fun p hp => hitem _ p (List.mem_filter.1 hp).1
  · intro ev f
    rw [List.mem_filter]
    refine and_congr_right fun hp => ?_
    rw [← counts_iff E ho l r shallow o ev f (kind f) (hkind f) _ (h3 _ hp)]
    simp [Change.loud]

/-- The one text file is listed, unless the white space that it differs in is to be ignored. -/
example :
    (match (distChange demoDist (textDist [97]) (textDist [97, 32]) false).check with
    | .ok c => some ((toJson (jarOpts [] []) ⟨false, false⟩ c).kids.length,
        (toJson (jarOpts [("ignore_trailing_whitespace".toList, true)] []) ⟨false, false⟩ c).kids.length)
    | .error _ => none) = some (1, 0) := by decide +kernel

end Javatools
