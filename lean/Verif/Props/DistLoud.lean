import Verif.Props.JarLoud
import Verif.Props.DistPage
/-
C175: the exit status of a comparison of distributions and the marks on the blocks of its HTML page.
-/
namespace Javatools
open Spec

/-- What the events are about, whatever the trees are. -/
theorem sound_events {l r : Forest} (hl : l.Ok) (hr : r.Ok) :
    (∀ e ∈ (compareDirs l r).1, ∃ p, Denotes e.2 p ∧ Reporting Shallow l r e.1 p) ∧
    ((compareDirs l r).1.map Prod.snd).Nodup := by
  obtain ⟨ps, h1, h2, h3, h4⟩ := C59_sound l r hl hr
  generalize (compareDirs l r).1 = evs at *
  have key : ∀ i (hi : i < evs.length) (hi' : i < ps.length), Denotes evs[i].2 ps[i].2 ∧
      Reporting Shallow l r evs[i].1 ps[i].2 := by
    intro i hi hi'
    have hz : (evs[i], ps[i]) ∈ evs.zip ps := by
      rw [show (evs[i], ps[i]) = (evs.zip ps)[i]'(by simp; omega) by simp]
      exact List.getElem_mem _
    refine ⟨(h2 _ hz).2, ?_⟩
    rw [(h2 _ hz).1]
    exact h4 _ _ (List.getElem_mem hi')
  constructor
  · intro e he
    obtain ⟨i, hi, rfl⟩ := List.getElem_of_mem he
    exact ⟨_, key i hi (h1 ▸ hi)⟩
  · rw [List.Nodup, List.pairwise_map, List.pairwise_iff_getElem]
    intro i j hi hj hij he
    obtain ⟨a1, a2⟩ := key i hi (h1 ▸ hi)
    obtain ⟨b1, b2⟩ := key j hj (h1 ▸ hj)
    rw [he] at a1
    have hp := denotes_unique (reported_names hl hr a2).1 (reported_names hl hr b2).1 (reported_names hl hr a2).2
      (reported_names hl hr b2).2 a1 b1
    rw [List.Nodup, List.pairwise_map, List.pairwise_iff_getElem] at h3
    exact h3 i j (h1 ▸ hi) (h1 ▸ hj) hij hp

/-! ### The page -/

/-- The marks on the page of a distribution. -/
theorem loud_distPage (f : PageFrame) {children : List Tree}
    (h : ∀ c ∈ treesClasses children, ClassWord c)
    (hn : (children.map fun t => (headingOf Tree.type (fun t => distOrig t.child) "SquashedChange" t, t.child.entry)).Nodup) :
    loudFrags (distPage f children) = children.any Tree.loud := by
  unfold distPage
  rw [loud_page _ "DistReport" rfl, loud_groups h hn]

/-! ### The changes -/

theorem dist_squashed (o : DiffOpts) (c : Change DiffOpts) :
    (distTreeOf o (c.squash false (some o))).loud = (c.squash false (some o)).loud o := by
  rw [Change.squash]
  cases c.hdr.kind <;> (simp only [Change.mkSquashed]; rw [distTreeOf]; split <;> (rw [Tree.loud]; rfl))

theorem dist_plain (o : DiffOpts) {h : Hdr DiffOpts} {short : Option Bool} {b : Bool} {d : Option Str}
    {kids : List (Change DiffOpts)} {x : Change DiffOpts} (hx : (Change.super h short b d kids).check = .ok x) :
    distTreeOf o x = treeOf o x := by
  have : ∃ b' kids', x = .super h short b' none kids' := by
    cases short with
    | some s => simp only [Change.check, Except.ok.injEq] at hx; exact ⟨_, _, hx.symm⟩
    | none =>
      rw [Change.check] at hx
      split at hx
      · simp at hx
      · simp only [Except.ok.injEq] at hx; exact ⟨_, _, hx.symm⟩
  obtain ⟨b', kids', rfl⟩ := this
  rfl

theorem dist_le (o : DiffOpts) (c : Change DiffOpts) (h : c.loud o = true) : (distTreeOf o c).loud = true := by
  cases c with
  | leaf hd cmp b d => exact verdict_le o _ h
  | super hd short b d kids => exact verdict_le o _ h
  | squashed hd oc b d i => rw [distTreeOf]; split <;> (rw [Tree.loud]; exact h)

/-- The options say of a changed file of this kind, or of all there is in it, that it is ignored. -/
def ExcusedFile (l r : Forest) (o : DiffOpts) (n : Str) : DistKind → Prop
  | .text => fnmatches n o.filenames = true ∨ (o.attr "ignore_trailing_whitespace" = true ∧
      ∃ ls ms, TextFile l n ls ∧ TextFile r n ms ∧ EqualText ls ms)
  | .manifest => fnmatches n o.filenames = true ∨ o.attr "ignore_manifest" = true
  | _ => False

theorem textFile_of_read {F : Forest} {n s : Str} (h : readText F n = .ok s) :
    ∃ t ls, readEntry F n = .ok (encodeUtf8 t) ∧ IsLines t ls ∧ s = universalNewlines t := by
  unfold readText at h
  split at h
  · simp at h
  · rename_i b hb
    split at h
    · simp at h
    · rename_i t ht
      simp only [Except.ok.injEq] at h
      obtain ⟨ls, hls⟩ := isLines_exists t
      exact ⟨t, ls, by rw [hb, (decodeStrict_iff b t).1 ht], hls, h.symm⟩

theorem lineEnding_text {l r : Forest} {n : Str} (h : lineEnding l r n = true) :
    ∃ ls ms, TextFile l n ls ∧ TextFile r n ms ∧ EqualText ls ms := by
  unfold lineEnding at h
  split at h
  · rename_i a b ha hb
    obtain ⟨s, ls, h1, h2, rfl⟩ := textFile_of_read ha
    obtain ⟨t, ms, h3, h4, rfl⟩ := textFile_of_read hb
    exact ⟨ls, ms, ⟨s, h1, h2⟩, ⟨t, h3, h4⟩, (alike_iff h2 h4).1 h⟩
  · simp at h

theorem text_open (l r : Forest) (o : DiffOpts) (f : Str) : ChangesOpen o (orRaise
      (match readText l f with
      | .error e => .error e
      | .ok a =>
        match readText r f with
        | .error e => .error e
        | .ok b => .ok (if a ≠ b then [textChange a b] else []))) := by
  cases readText l f with
  | error e => exact ⟨trivial, trivial⟩
  | ok a =>
    cases readText r f with
    | error e => exact ⟨trivial, trivial⟩
    | ok b =>
      by_cases h : a ≠ b
      · simp only [if_pos h]; exact ⟨trivial, trivial⟩
      · simp only [if_neg h]; exact trivial

/-- What the page shows of a file is the verdict on it. -/
theorem dist_faithful (E : DistEnv) (l r : Forest) (shallow : Bool) (o : DiffOpts) (ev : Event)
    (f : Str) (k : DistKind) (hk : DistKindOf shallow f k)
    (hu : ev = .diff ∨ (ev = .same ∧ readEntry l f ≠ readEntry r f) → ¬ ExcusedFile l r o f k)
    {x : Change DiffOpts}
    (hx : (if isDistReported (distEntryChange E l r shallow (ev, f)) then
      distRun E l r o (distEntryChange E l r shallow (ev, f))
      else (distEntryChange E l r shallow (ev, f)).check) = .ok x) :
    (distTreeOf o x).loud = x.loud o := by
  rw [distEntryChange_eq E l r shallow ev f k hk] at hx
  by_cases hr : isDistReported (distObject E l r f ev k) = true
  · rw [hr, if_pos rfl, distRun] at hx
    cases hc : distReportCheck E l r o (distObject E l r f ev k) with
    | error e => rw [hc] at hx; simp [Except.map] at hx
    | ok d =>
      rw [hc] at hx
      simp only [Except.map, Except.ok.injEq] at hx
      subst hx
      exact dist_squashed o d
  · rw [if_neg hr] at hx
    have hone : ∀ {name label : String} {kd : Kind}, (distOneSided name label kd f).check = .ok x →
        (distTreeOf o x).loud = x.loud o := by
      intro name label kd h
      have h' := h
      unfold distOneSided at h'
      rw [dist_plain o h']
      refine open_faithful o _ x ?_ h'
      exact ⟨rfl, .inr rfl, trivial⟩
    have hbare : ∀ {name label : String} {ign : IgnoreRule DiffOpts} {b : Bool},
        (distContent name label ign f b []).check = .ok x → (distTreeOf o x).loud = x.loud o := by
      intro name label ign b h
      have h' := h
      unfold distContent at h'
      rw [dist_plain o h']
      refine open_faithful o _ x ?_ h'
      exact ⟨rfl, .inr rfl, trivial⟩
    have htext : ∀ b, (ev = .diff ∨ (ev = .same ∧ readEntry l f ≠ readEntry r f) → ¬ ExcusedFile l r o f .text) →
        (ev = .diff ∨ ev = .same) →
        (distTextChange l r f b).check = .ok x → (distTreeOf o x).loud = x.loud o := by
      intro b hu hev h
      have h' := h
      unfold distTextChange distContent at h'
      rw [dist_plain o h']
      refine open_faithful o _ x ?_ h'
      refine ⟨rfl, ?_, text_open l r o f⟩
      by_cases he : ev = .diff ∨ (ev = .same ∧ readEntry l f ≠ readEntry r f)
      · left
        have hu := hu he
        change (filenameIgnored f o || (lineEnding l r f && o.attr "ignore_trailing_whitespace")) = false
        simp only [ExcusedFile, not_or] at hu
        rw [Bool.or_eq_false_iff]
        refine ⟨by simpa [filenameIgnored] using hu.1, ?_⟩
        cases h1 : lineEnding l r f with
        | false => rfl
        | true =>
          cases h2 : o.attr "ignore_trailing_whitespace" with
          | false => rfl
          | true => exact absurd ⟨h2, lineEnding_text h1⟩ hu.2
      · -- the same file
        have he : readEntry l f = readEntry r f := by
          refine Classical.byContradiction fun hne => he ?_
          rcases hev with hev | hev
          · exact .inl hev
          · exact .inr ⟨hev, hne⟩
        have hrt : readText l f = readText r f := by unfold readText; rw [he]
        cases hra : readText r f with
        | error e =>
          unfold distTextChange distContent at h
          rw [hrt, hra] at h
          simp [orRaise, raising, Change.check, Change.checkAll] at h
        | ok a =>
          right
          rw [hrt, hra]
          simp [orRaise]
    cases ev with
    | left => cases k <;> exact hone hx
    | right => cases k <;> exact hone hx
    | same =>
      cases k with
      | jar => exact hbare hx
      | cls => exact hbare hx
      | manifest => exact hbare hx
      | other => exact hbare hx
      | text => exact htext false hu (.inr rfl) hx
    | diff =>
      cases k with
      | jar => exact absurd rfl hr
      | cls => exact absurd rfl hr
      | other => exact hbare hx
      | text => exact htext true hu (.inl rfl) hx
      | manifest =>
        have hu := hu (.inl rfl)
        simp only [ExcusedFile, not_or, Bool.not_eq_true] at hu
        have h' := hx
        change (distManifestChange E l r f true).check = .ok x at h'
        unfold distManifestChange distContent at h'
        rw [dist_plain o h']
        refine open_faithful o _ x ?_ h'
        refine ⟨rfl, .inl hu.1, ?_⟩
        exact orRaise_open _ _ fun p => ⟨rfl, .inl hu.2, manifest_open ..⟩

theorem seqLoop_kept {C : Type} {J : Jobs C} {cs : List C} {b : Bool} {cs' : List C} {b' : Bool}
    (h : seqLoop J cs b = .ok (cs', b')) :
    (b' = true ↔ b = true ∨ ∃ x ∈ cs', J.isChange x = true) ∧
    ∀ x ∈ cs', ∃ c ∈ cs, (if J.isReport c then J.run c else J.check c) = .ok x := by
  induction cs generalizing b cs' with
  | nil =>
    simp only [seqLoop, Except.ok.injEq, Prod.mk.injEq] at h
    rw [← h.1, ← h.2]
    simp
  | cons c cs ih =>
    simp only [seqLoop] at h
    cases hx : (if J.isReport c then J.run c else J.check c) with
    | error e => rw [hx] at h; simp at h
    | ok x =>
      rw [hx] at h
      simp only at h
      cases hr : seqLoop J cs (b || J.isChange x) with
      | error e => rw [hr] at h; simp at h
      | ok p =>
        obtain ⟨ys, b1⟩ := p
        rw [hr] at h
        simp only [Except.ok.injEq, Prod.mk.injEq] at h
        obtain ⟨i1, i2⟩ := ih (h.2 ▸ hr)
        rw [← h.1]
        refine ⟨?_, ?_⟩
        · rw [i1]
          simp only [List.mem_cons, exists_eq_or_imp, Bool.or_eq_true, or_assoc]
        · intro y hy
          rcases List.mem_cons.1 hy with rfl | hy
          · exact ⟨c, List.mem_cons_self .., hx⟩
          · obtain ⟨c', h1, h2⟩ := i2 y hy
            exact ⟨c', List.mem_cons_of_mem _ h1, h2⟩

theorem seqLoop_all {C : Type} {J : Jobs C} {cs : List C} {b : Bool} {cs' : List C} {b' : Bool}
    (h : seqLoop J cs b = .ok (cs', b')) :
    ∀ c ∈ cs, ∃ x ∈ cs', (if J.isReport c then J.run c else J.check c) = .ok x := by
  induction cs generalizing b cs' with
  | nil => simp
  | cons c cs ih =>
    simp only [seqLoop] at h
    cases hx : (if J.isReport c then J.run c else J.check c) with
    | error e => rw [hx] at h; simp at h
    | ok x =>
      rw [hx] at h
      simp only at h
      cases hr : seqLoop J cs (b || J.isChange x) with
      | error e => rw [hr] at h; simp at h
      | ok p =>
        obtain ⟨ys, b1⟩ := p
        rw [hr] at h
        simp only [Except.ok.injEq, Prod.mk.injEq] at h
        rw [← h.1]
        intro y hy
        rcases List.mem_cons.1 hy with rfl | hy
        · exact ⟨x, List.mem_cons_self .., hx⟩
        · obtain ⟨z, h1, h2⟩ := ih (h.2 ▸ hr) y hy
          exact ⟨z, List.mem_cons_of_mem _ h1, h2⟩

/-- C175 in full: the exit status is what the marks on the page say. -/
def C175_full : Prop := ∀ (E : DistEnv) (l r : Forest) (shallow : Bool) (o : DiffOpts) (f : PageFrame)
  (page : List Frag), l.Ok → r.Ok →
  (∀ p b t c u, FileAt l p b t → FileAt r p c u → b ≠ c →
    DistKindOf shallow (slashed p) .jar ∨ DistKindOf shallow (slashed p) .cls → '"' ∉ slashed p) →
  f.Plain → distReportPage E l r shallow o f = .ok page →
  distReportStatus E l r shallow o = .ok (if loudOn (renderFrags page) then 1 else 0)

/-- The status and the marks. -/
theorem dist_marks (E : DistEnv) (l r : Forest) (shallow : Bool) (hl : l.Ok) (hr : r.Ok)
    (hq : ∀ p b t c u, FileAt l p b t → FileAt r p c u → b ≠ c →
      DistKindOf shallow (slashed p) .jar ∨ DistKindOf shallow (slashed p) .cls → '"' ∉ slashed p)
    (o : DiffOpts) (f : PageFrame) (hf : f.Plain) (page : List Frag)
    (h : distReportPage E l r shallow o f = .ok page) :
    ∃ cs' : List (Change DiffOpts),
      loudOn (renderFrags page) = (cs'.map (distTreeOf o)).any Tree.loud ∧
      distReportStatus E l r shallow o = .ok (if cs'.any (Change.loud o) then 1 else 0) ∧
      (∀ x ∈ cs', ∃ ev n k p, (ev, n) ∈ (compareDirs l r).1 ∧
        DistKindOf shallow n k ∧ Denotes n p ∧ Reporting Shallow l r ev p ∧
        (if isDistReported (distEntryChange E l r shallow (ev, n)) then
          distRun E l r o (distEntryChange E l r shallow (ev, n))
          else (distEntryChange E l r shallow (ev, n)).check) = .ok x) ∧
      ∀ e ∈ (compareDirs l r).1, ∃ x ∈ cs', (if isDistReported (distEntryChange E l r shallow e) then
          distRun E l r o (distEntryChange E l r shallow e)
          else (distEntryChange E l r shallow e).check) = .ok x := by
  obtain ⟨cs, cs', b, h1, h5, rfl⟩ := distReportPage_ok h
  have hnone : (compareDirs l r).2 = none := by
    unfold distChildren at h1
    split at h1
    · simp at h1
    · rename_i he; rw [he]
  obtain ⟨hpath, honce⟩ := sound_events hl hr
  generalize hevs : (compareDirs l r).1 = evs at *
  have he : compareDirs l r = (evs, none) := by rw [← hevs, ← hnone]
  obtain ⟨cs₀, h1', _, h3, _⟩ := C74_collected E l r shallow evs he
  obtain rfl : cs₀ = cs := by rw [h1] at h1'; exact (Except.ok.inj h1').symm
  have hfrom : ∀ c ∈ cs₀, ∃ p ∈ evs, c = distEntryChange E l r shallow p := by
    intro c hc
    obtain ⟨p, hp, rfl⟩ := List.mem_map.1 (h3.mem_iff.1 hc)
    exact ⟨p, hp, rfl⟩
  obtain ⟨h6, h7⟩ := dist_trees E l r shallow o cs₀
    (fun c hc => by obtain ⟨p, _, hp⟩ := hfrom c hc; exact ⟨p, hp⟩) false cs' b h5
  obtain ⟨hb, hall⟩ := seqLoop_kept h5
  simp only [Bool.false_eq_true, false_or] at hb
  refine ⟨cs', ?_, ?_, ?_, ?_⟩
  · have hname : ∀ p ∈ evs, p.1 = .diff → DistKindOf shallow p.2 .jar ∨ DistKindOf shallow p.2 .cls → '"' ∉ p.2 := by
      intro e hp hev hk
      obtain ⟨q, hd, hrep⟩ := hpath e hp
      have hdot : '"' ∉ "./".toList := by decide
      have hno : '"' ∉ slashed q := by
        rw [hev] at hrep
        obtain ⟨b, t, c, u, hb, hc', hne⟩ := hrep
        exact hq q b t c u hb hc' (fun e => hne (.inl e)) ((denoted_kinds hd).1 hk)
      rcases hd with hd | hd
      · rw [hd]; exact hno
      · rw [hd, List.mem_append]; exact fun h => h.elim hdot hno
    have hentry : ∀ t ∈ cs'.map (distTreeOf o), ∃ p ∈ evs, ∃ k, DistKindOf shallow p.2 k ∧
        ShowsEntry distOrig (p.1 = .diff ∧ (k = .jar ∨ k = .cls)) t (distClass p.1 k) p.2 := by
      intro t ht
      obtain ⟨ev, n, k, hm, hk, hs⟩ := h7 t ht
      obtain ⟨⟨ev', n'⟩, hp, he⟩ := hfrom _ hm
      obtain ⟨k', hk', _⟩ := distKind_unique shallow n'
      have e1 := C74_entry E l r shallow ev n k hk
      have e2 := C74_entry E l r shallow ev' n' k' hk'
      rw [he] at e1
      have e3 : n' = n := Option.some.inj (e2.2.1.symm.trans e1.2.1)
      subst e3
      obtain rfl : k' = k := by
        obtain ⟨_, _, hu⟩ := distKind_unique shallow n'
        exact (hu _ hk').trans (hu _ hk).symm
      obtain rfl : ev' = ev := event_eq (e2.2.2.1.symm.trans e1.2.2.1) (e2.2.2.2.symm.trans e1.2.2.2)
      exact ⟨(ev', n'), hp, k', hk', hs⟩
    have hclass : ∀ c ∈ treesClasses (cs'.map (distTreeOf o)), ClassWord c := by
      intro c hc
      obtain ⟨t, ht, hc⟩ := mem_treesClasses.1 hc
      obtain ⟨p, _, k, _, hs⟩ := hentry t ht
      exact hs.classes c hc
    have hlink : ∀ s ∈ treesLinks (cs'.map (distTreeOf o)), '"' ∉ s := by
      intro s hs
      obtain ⟨t, ht, hs⟩ := mem_treesLinks.1 hs
      obtain ⟨p, hp, k, hk, hst⟩ := hentry t ht
      rcases hst.links s hs with ⟨rfl, he, hor⟩ | hno
      · refine hname p hp he ?_
        rcases hor with rfl | rfl
        · exact .inl hk
        · exact .inr hk
      · exact hno
    have hclean := (runs_dist (b := false) hf (by simp) (fun c hc => (hclass c hc).quote) hlink).clean
    have hnodup : ((cs'.map (distTreeOf o)).map fun t => (headingOf Tree.type (fun t => distOrig t.child)
        "SquashedChange" t, t.child.entry)).Nodup := by
      rw [h6]
      refine (h3.map fun c => (c.hdr.typeName, c.hdr.entry.getD [])).nodup_iff.2 ?_
      have h9 := honce
      rw [List.Nodup, List.pairwise_map] at h9
      rw [List.map_map, List.Nodup, List.pairwise_map]
      refine h9.imp fun {p q} hne he => hne ?_
      obtain ⟨k, hk, _⟩ := distKind_unique shallow p.2
      obtain ⟨k', hk', _⟩ := distKind_unique shallow q.2
      have e1 := (C74_entry E l r shallow p.1 p.2 k hk).2.1
      have e2 := (C74_entry E l r shallow q.1 q.2 k' hk').2.1
      have he := congrArg Prod.snd he
      simp only [Function.comp] at he
      rw [e1, e2] at he
      exact he
    unfold loudOn
    rw [tagsOf_render hclean]
    exact loud_distPage f hclass hnodup
  · unfold distReportStatus seqCheck
    rw [h1]
    simp only [h5]
    change Except.ok (Change.exitStatus o (distReport (cs', b))) = _
    rw [exitStatus_loud, distReport, loud_composite rfl rfl hb]
  · intro x hx
    obtain ⟨c, hc, hx⟩ := hall x hx
    obtain ⟨⟨ev, n⟩, hp, rfl⟩ := hfrom c hc
    obtain ⟨k, hk, _⟩ := distKind_unique shallow n
    obtain ⟨p, hd, hrep⟩ := hpath _ hp
    exact ⟨ev, n, k, p, hp, hk, hd, hrep, hx⟩
  · intro e he
    exact seqLoop_all h5 _ (h3.mem_iff.2 (List.mem_map.2 ⟨e, he, rfl⟩))

/-- C175, proved part: when the status is 1 the page has a block marked as changed and not as ignored. It is
so the other way round too, when the options do not say of a changed text or manifest that it is ignored. -/
theorem C175_partial (E : DistEnv) (l r : Forest) (shallow : Bool) (hl : l.Ok) (hr : r.Ok)
    (hq : ∀ p b t c u, FileAt l p b t → FileAt r p c u → b ≠ c →
      DistKindOf shallow (slashed p) .jar ∨ DistKindOf shallow (slashed p) .cls → '"' ∉ slashed p)
    (o : DiffOpts) (f : PageFrame) (hf : f.Plain) (page : List Frag)
    (h : distReportPage E l r shallow o f = .ok page) :
    (∃ s, s ≤ 1 ∧ distReportStatus E l r shallow o = .ok s) ∧
    (distReportStatus E l r shallow o = .ok 1 → loudOn (renderFrags page) = true) ∧
    ((∀ p b t c u n k, FileAt l p b t → FileAt r p c u → b ≠ c → Denotes n p → DistKindOf shallow n k →
        ¬ ExcusedFile l r o n k) →
      distReportStatus E l r shallow o = .ok (if loudOn (renderFrags page) then 1 else 0)) := by
  obtain ⟨cs', h1, h2, h3, _⟩ := dist_marks E l r shallow hl hr hq o f hf page h
  rw [h1, h2, List.any_map]
  refine ⟨⟨_, ?_, rfl⟩, ?_, ?_⟩
  · split <;> decide
  · intro hs
    by_cases ha : cs'.any (Change.loud o) = true
    · obtain ⟨x, hx, hl⟩ := List.any_eq_true.1 ha
      rw [List.any_eq_true]
      exact ⟨x, hx, dist_le o x hl⟩
    · rw [if_neg ha] at hs
      simp at hs
  · intro hu
    have : ∀ x ∈ cs', (distTreeOf o x).loud = x.loud o := by
      intro x hx
      obtain ⟨ev, n, k, p, _, hk, hd, hrep, hx⟩ := h3 x hx
      refine dist_faithful E l r shallow o ev n k hk (fun e => ?_) hx
      rcases e with rfl | ⟨rfl, hne⟩
      · obtain ⟨b, t, c, u, hb, hc, hn⟩ := hrep
        exact hu p b t c u n k hb hc (fun e => hn (.inl e)) hd hk
      · obtain ⟨b, t, c, u, hb, hc, _⟩ := hrep
        refine hu p b t c u n k hb hc (fun e => hne ?_) hd hk
        rw [readEntry_file hl hb hd, readEntry_file hr hc hd, e]
    have : cs'.any (Tree.loud ∘ distTreeOf o) = cs'.any (Change.loud o) := by
      rw [Bool.eq_iff_iff, List.any_eq_true, List.any_eq_true]
      constructor
      · rintro ⟨x, hx, hl⟩; exact ⟨x, hx, by rw [← this x hx]; exact hl⟩
      · rintro ⟨x, hx, hl⟩; exact ⟨x, hx, by rw [Function.comp, this x hx]; exact hl⟩
    rw [this]

/-- Two distributions with a text. -/
def textDist (b : Bytes) : Forest := .file "a.txt".toList b b.length .nil

theorem textDist_ok (b : Bytes) : (textDist b).Ok := by
  simp only [textDist, Forest.Ok, IsName, Forest.names]
  decide +kernel

theorem muted_text : (match distReportPage demoDist (textDist [97]) (textDist [97, 32]) false
      (jarOpts [("ignore_trailing_whitespace".toList, true)] []) (bareFrame true),
      distReportStatus demoDist (textDist [97]) (textDist [97, 32]) false
        (jarOpts [("ignore_trailing_whitespace".toList, true)] []) with
    | .ok page, .ok s => some (loudOn (renderFrags page), s)
    | _, _ => none) = some (true, 0) := by decide +kernel

theorem textDist_file {b c : Bytes} {t : Int} {p : List Str} (h : FileAt (textDist b) p c t) :
    p = ["a.txt".toList] := by
  unfold textDist at h
  cases h with
  | here => rfl
  | afterFile _ _ _ h => cases h

theorem C175_full_fails : ¬ C175_full := by
  intro h
  have hs := muted_text
  generalize ho : jarOpts [("ignore_trailing_whitespace".toList, true)] [] = o at hs
  cases hp : distReportPage demoDist (textDist [97]) (textDist [97, 32]) false o (bareFrame true) with
  | error e => rw [hp] at hs; simp at hs
  | ok page =>
    have := h demoDist _ _ _ _ _ page (textDist_ok _) (textDist_ok _) ?_ (bare_plain true) hp
    · rw [hp, this] at hs
      dsimp only at hs
      rw [Option.some.injEq, Prod.mk.injEq] at hs
      rw [hs.1] at hs
      exact absurd hs.2 (by decide)
    · intro p b t c u hb _ _ _
      rw [textDist_file hb]
      decide +kernel

-- without the option the page and the status agree
example : (match distReportPage demoDist (textDist [97]) (textDist [97, 32]) false (jarOpts [] []) (bareFrame true),
      distReportStatus demoDist (textDist [97]) (textDist [97, 32]) false (jarOpts [] []) with
    | .ok page, .ok s => some (loudOn (renderFrags page), s)
    | _, _ => none) = some (true, 1) := by decide +kernel

-- so they do for a class that is ignored by its name
example : (match distReportPage demoDist (.file "B.class".toList (tinyClass 1).enc 0 .nil)
        (.file "B.class".toList (tinyClass 0).enc 1 .nil) false
        { flags := [], manifestKeys := [], jarEntries := [], filenames := ["*B*".toList] } (bareFrame true),
      distReportStatus demoDist (.file "B.class".toList (tinyClass 1).enc 0 .nil)
        (.file "B.class".toList (tinyClass 0).enc 1 .nil) false
        { flags := [], manifestKeys := [], jarEntries := [], filenames := ["*B*".toList] } with
    | .ok page, .ok s => some (loudOn (renderFrags page), s)
    | _, _ => none) = some (false, 0) := by decide +kernel

/-! ### Which comparisons it is not so for -/

/-- What is shown below a file of this kind is a change that is not ignored: texts that differ in more than the
kind of their line ends, or a section of a manifest that changed in an attribute that is not to be ignored. -/
def TellingFile (l r : Forest) (o : DiffOpts) (ev : Event) (n : Str) : DistKind → Prop
  | .text => (ev = .diff ∨ ev = .same) ∧ ∃ a b, readText l n = .ok a ∧ readText r n = .ok b ∧ a ≠ b
  | .manifest => ev = .diff ∧ ∃ x y m m', readEntry l n = .ok x ∧ readEntry r n = .ok y ∧
      emptyManifest.parse x = .ok m ∧ emptyManifest.parse y = .ok m' ∧
      ∃ t, Expected m m' t ∧ LineChanged m m' t ∧ ¬ LineIgnored m m' o t
  | _ => False

/-- A file of those that are compared is ignored, though not what is shown below it. -/
def HiddenFile (l r : Forest) (shallow : Bool) (o : DiffOpts) : Prop :=
  ∃ ev n k, (ev, n) ∈ (compareDirs l r).1 ∧ DistKindOf shallow n k ∧ ExcusedFile l r o n k ∧
    TellingFile l r o ev n k

/-- The marks on a file. -/
theorem tellingFile_iff (E : DistEnv) (ho : IsSetOrder E.order) (l r : Forest) (o : DiffOpts) (ev : Event)
    (n : Str) (k : DistKind) (hk : k = .text ∨ k = .manifest) (x : Change DiffOpts)
    (hx : (distObject E l r n ev k).check = .ok x) :
    (distTreeOf o x).loud = true ↔ x.loud o = true ∨ TellingFile l r o ev n k := by
  have hbare : ∀ (h : Hdr DiffOpts) (b : Bool), Change.check (.super h none b none []) = .ok x →
      (distTreeOf o x).loud = x.loud o := by
    intro h b hx
    rw [dist_plain o hx]
    simp only [Change.check, Change.checkAll, Except.ok.injEq] at hx
    subst hx
    exact loud_childless o _ rfl
  have hone : ∀ {p : Prop}, ¬ p → (distTreeOf o x).loud = x.loud o →
      ((distTreeOf o x).loud = true ↔ x.loud o = true ∨ p) := by
    intro p hp h
    rw [h]
    simp [hp]
  have htext : ∀ b, (ev = .diff ∨ ev = .same) → (distTextChange l r n b).check = .ok x →
      ((distTreeOf o x).loud = true ↔ x.loud o = true ∨ TellingFile l r o ev n .text) := by
    intro b hev hx
    unfold distTextChange distContent at hx
    rw [dist_plain o hx]
    simp only [TellingFile, hev, true_and]
    cases ha : readText l n with
    | error e => rw [ha] at hx; simp [orRaise, raising, Change.check, Change.checkAll] at hx
    | ok s =>
    cases hb : readText r n with
    | error e => rw [ha, hb] at hx; simp [orRaise, raising, Change.check, Change.checkAll] at hx
    | ok t =>
    rw [ha, hb] at hx
    by_cases hst : s = t
    · simp only [hst, ne_eq, not_true_eq_false, if_false, orRaise] at hx
      have := hbare _ _ hx
      rw [dist_plain o hx] at this
      rw [this]
      simp [hst]
    · simp only [ne_eq, hst, not_false_eq_true, if_true, orRaise, textChange] at hx
      obtain ⟨d, h1, h2⟩ := loud_single o _ _ _ _ hx
      rw [h2]
      have h3 := loud_raw o _ _ _ _ rfl rfl h1
      simp [h3, hst]
  rcases hk with rfl | rfl
  · cases ev with
    | left => exact hone (by rintro ⟨h | h, _⟩ <;> simp at h) (hbare _ _ hx)
    | right => exact hone (by rintro ⟨h | h, _⟩ <;> simp at h) (hbare _ _ hx)
    | diff => exact htext true (.inl rfl) hx
    | same => exact htext false (.inr rfl) hx
  · cases ev with
    | left => exact hone (by rintro ⟨h, _⟩; simp at h) (hbare _ _ hx)
    | right => exact hone (by rintro ⟨h, _⟩; simp at h) (hbare _ _ hx)
    | same => exact hone (by rintro ⟨h, _⟩; simp at h) (hbare _ _ hx)
    | diff =>
      change (distManifestChange E l r n true).check = .ok x at hx
      unfold distManifestChange distContent at hx
      rw [dist_plain o hx]
      simp only [TellingFile, true_and, if_true, bothFiles] at hx ⊢
      cases ha : readEntry l n with
      | error e => rw [ha] at hx; simp [Except.map, orRaise, raising, Change.check, Change.checkAll] at hx
      | ok y =>
      cases hm : emptyManifest.parse y with
      | error e => rw [ha] at hx; simp [hm, Except.map, orRaise, raising, Change.check, Change.checkAll] at hx
      | ok m =>
      cases hb : readEntry r n with
      | error e => rw [ha, hb] at hx; simp [hm, Except.map, orRaise, raising, Change.check, Change.checkAll] at hx
      | ok z =>
      cases hm' : emptyManifest.parse z with
      | error e => rw [ha, hb] at hx; simp [hm, hm', Except.map, orRaise, raising, Change.check, Change.checkAll] at hx
      | ok m' =>
      rw [ha, hb] at hx
      simp only [hm, hm', Except.map, orRaise] at hx
      obtain ⟨d, h1, h2⟩ := loud_single o _ _ _ _ hx
      rw [h2, lines_loud ho E.text (C68_parsed _ _ hm).1 (C68_parsed _ _ hm').1 o _ _ rfl rfl h1]
      constructor
      · rintro (h | h)
        · exact .inl h
        · exact .inr ⟨_, _, _, _, rfl, rfl, hm, hm', h⟩
      · rintro (h | ⟨_, _, _, _, e3, e4, e1, e2, h⟩)
        · exact .inl h
        · rw [Except.ok.injEq] at e3 e4
          subst e3 e4
          rw [hm, Except.ok.injEq] at e1
          rw [hm', Except.ok.injEq] at e2
          subst e1 e2
          exact .inr h

/-- C175, for exactly which comparisons: those with status 1, and those where no file with changes that are not
ignored is ignored. The page has a mark in the other cases too. -/
theorem C175_exact (E : DistEnv) (ho : IsSetOrder E.order) (l r : Forest) (shallow : Bool) (hl : l.Ok) (hr : r.Ok)
    (hq : ∀ p b t c u, FileAt l p b t → FileAt r p c u → b ≠ c →
      DistKindOf shallow (slashed p) .jar ∨ DistKindOf shallow (slashed p) .cls → '"' ∉ slashed p)
    (o : DiffOpts) (f : PageFrame) (hf : f.Plain) (page : List Frag)
    (h : distReportPage E l r shallow o f = .ok page) :
    (loudOn (renderFrags page) = true ↔ distReportStatus E l r shallow o = .ok 1 ∨ HiddenFile l r shallow o) ∧
    (distReportStatus E l r shallow o = .ok (if loudOn (renderFrags page) then 1 else 0) ↔
      distReportStatus E l r shallow o = .ok 1 ∨ ¬ HiddenFile l r shallow o) := by
  have hkind : ∀ {n k}, ExcusedFile l r o n k → k = .text ∨ k = .manifest := by
    intro n k hex
    cases k with
    | text => exact .inl rfl
    | manifest => exact .inr rfl
    | jar => exact absurd hex id
    | cls => exact absurd hex id
    | other => exact absurd hex id
  have hrep : ∀ {ev n k}, k = .text ∨ k = .manifest → isDistReported (distObject E l r n ev k) = false := by
    rintro ev n k (rfl | rfl) <;> cases ev <;> rfl
  have key : loudOn (renderFrags page) = true ↔
      distReportStatus E l r shallow o = .ok 1 ∨ HiddenFile l r shallow o := by
    constructor
    · intro hlo
      obtain ⟨cs', h1, h2, h3, _⟩ := dist_marks E l r shallow hl hr hq o f hf page h
      rw [h1, List.any_map, List.any_eq_true] at hlo
      cases hs : cs'.any (Change.loud o) with
      | true => rw [h2, hs]; exact .inl rfl
      | false =>
        obtain ⟨x, hx, hxl⟩ := hlo
        simp only [Function.comp] at hxl
        have hno : x.loud o = false := by
          have := List.any_eq_false.1 hs x hx
          simpa using this
        obtain ⟨ev, n, k, p, hm, hk, hd, _, hx⟩ := h3 x hx
        by_cases hex : ExcusedFile l r o n k
        · refine .inr ⟨ev, n, k, hm, hk, hex, ?_⟩
          rw [distEntryChange_eq E l r shallow ev n k hk, hrep (hkind hex)] at hx
          rcases (tellingFile_iff E ho l r o ev n k (hkind hex) x hx).1 hxl with h4 | h4
          · rw [hno] at h4; simp at h4
          · exact h4
        · rw [dist_faithful E l r shallow o ev n k hk (fun _ => hex) hx, hno] at hxl
          simp at hxl
    · rintro (hs | ⟨ev, n, k, hm, hk, hex, ht⟩)
      · exact (C175_partial E l r shallow hl hr hq o f hf page h).2.1 hs
      · obtain ⟨cs', h1, _, _, h4⟩ := dist_marks E l r shallow hl hr hq o f hf page h
        obtain ⟨x, hxm, hx⟩ := h4 _ hm
        rw [distEntryChange_eq E l r shallow ev n k hk, hrep (hkind hex)] at hx
        rw [h1, List.any_map, List.any_eq_true]
        exact ⟨x, hxm, (tellingFile_iff E ho l r o ev n k (hkind hex) x hx).2 (.inr ht)⟩
  refine ⟨key, ?_⟩
  obtain ⟨⟨s, hs1, hs⟩, _⟩ := C175_partial E l r shallow hl hr hq o f hf page h
  rw [hs] at key ⊢
  simp only [Except.ok.injEq] at key ⊢
  cases hlo : loudOn (renderFrags page) with
  | true =>
    rw [hlo] at key
    simp only [if_true]
    constructor
    · exact .inl
    · rintro (h1 | h1)
      · exact h1
      · rcases key.1 rfl with h2 | h2
        · exact h2
        · exact absurd h2 h1
  | false =>
    rw [hlo] at key
    simp only [Bool.false_eq_true, if_false]
    have h1 : ¬ (s = 1 ∨ HiddenFile l r shallow o) := fun h => by simpa using key.2 h
    rw [not_or] at h1
    constructor
    · exact fun _ => .inr h1.2
    · intro _; omega

/-- With `--ignore-trailing-whitespace` the text is ignored, but not the comparison of the two texts below it. -/
example : HiddenFile (textDist [97]) (textDist [97, 32]) false
    (jarOpts [("ignore_trailing_whitespace".toList, true)] []) := by
  refine ⟨.diff, "./a.txt".toList, .text, by decide +kernel, ?_, .inr ⟨by decide +kernel, ?_⟩, .inl rfl, ['a'], ['a', ' '],
    rfl, rfl, by decide⟩
  · exact ⟨rfl, ".txt", by decide +kernel, ⟨"./a".toList, by decide +kernel⟩⟩
  · exact lineEnding_text (by decide +kernel)

end Javatools
