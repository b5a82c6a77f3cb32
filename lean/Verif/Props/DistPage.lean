import Verif.Model.DistPage
import Verif.Props.JarPage
import Verif.Props.DistDiff
import Verif.Props.DirExact
/-
C171: the HTML page of a comparison of distributions, from the directories on: javatools/distdiff.py,
javatools/report.py and the templates.
-/
namespace Javatools
open Spec

/-! ### The changes of a report -/

theorem shows_dist_jar (v : Verdict) (f : Str) :
    ShowsEntry distOrig True
      (.squashed "DistJarReport" v f "JarReport".toList) "DistJarChange" f where
  heading := by rw [headingOf]; exact (if_pos rfl).trans (if_pos rfl)
  entry := rfl
  adds := adds_squashed _ _ _ _
  classes := by
    rw [Tree.classes]
    intro c hc
    rw [List.mem_singleton] at hc
    subst hc
    exact classWord (by decide +kernel)
  links := by
    have h : '"' ∉ "JarReport".toList := by decide +kernel
    rw [Tree.links]
    intro s hs
    simp only [List.mem_cons, List.not_mem_nil, or_false] at hs
    rcases hs with rfl | rfl
    · exact .inl ⟨rfl, trivial⟩
    · exact .inr h

theorem shows_dist_class (v : Verdict) (f : Str) :
    ShowsEntry distOrig True
      (.squashed "DistClassReport" v f "JavaClassReport".toList) "DistClassChange" f where
  heading := by rw [headingOf]; exact (if_pos rfl).trans ((if_neg (show "DistClassReport" ≠ "DistJarReport" by decide)).trans (if_pos rfl))
  entry := rfl
  adds := adds_squashed _ _ _ _
  classes := by
    rw [Tree.classes]
    intro c hc
    rw [List.mem_singleton] at hc
    subst hc
    exact classWord (by decide +kernel)
  links := by
    have h : '"' ∉ "JavaClassReport".toList := by decide +kernel
    rw [Tree.links]
    intro s hs
    simp only [List.mem_cons, List.not_mem_nil, or_false] at hs
    rcases hs with rfl | rfl
    · exact .inl ⟨rfl, trivial⟩
    · exact .inr h

theorem distClass_entry (ev : Event) (k : DistKind) : distClass ev k ∈ entryTypes := by
  cases ev <;> cases k <;> decide

/-- A change of a file that is not replaced by a report. -/
theorem shows_dist_super {P : Prop} (o : DiffOpts) {hd : Hdr DiffOpts} {f : Str} {b : Bool}
    {kids : List (Change DiffOpts)} {x : Change DiffOpts} {ev : Event} {k : DistKind}
    (ht : hd.typeName = distClass ev k) (he : hd.entry = some f) (hk : ChangesCalm kids)
    (hx : (Change.super hd none b none kids).check = .ok x) :
    ShowsEntry distOrig P (distTreeOf o x) (distClass ev k) f := by
  have h := shows_super o (ht ▸ distClass_entry ev k) he hk hx distOrig P
  rw [← ht]
  cases x with
  | leaf => exact h
  | super => exact h
  | squashed h' oc changed desc ignored =>
    simp only [Change.check] at hx
    split at hx <;> simp at hx

theorem text_calm (l r : Forest) (f : Str) : ChangesCalm (orRaise
      (match readText l f with
      | .error e => .error e
      | .ok a =>
        match readText r f with
        | .error e => .error e
        | .ok b => .ok (if a ≠ b then [textChange a b] else []))) := by
  cases readText l f with
  | error e => exact raising_calm e
  | ok a =>
    cases readText r f with
    | error e => exact raising_calm e
    | ok b =>
      by_cases h : a ≠ b
      · simp only [if_pos h]
        exact ⟨show "GenericChange" ∈ calmTypes by decide, trivial⟩
      · simp only [if_neg h]
        exact trivial

/-- What is left of a change of a file in the report. -/
theorem shows_dist_event (E : DistEnv) (l r : Forest) (shallow : Bool) (o : DiffOpts) (ev : Event)
    (f : Str) (k : DistKind) (hk : DistKindOf shallow f k) {x : Change DiffOpts}
    (hx : (if isDistReported (distEntryChange E l r shallow (ev, f)) then
      distRun E l r o (distEntryChange E l r shallow (ev, f))
      else (distEntryChange E l r shallow (ev, f)).check) = .ok x) :
    ShowsEntry distOrig (ev = .diff ∧ (k = .jar ∨ k = .cls)) (distTreeOf o x) (distClass ev k) f := by
  rw [distEntryChange_eq E l r shallow ev f k hk] at hx
  have hman : ∀ p : Manifest × Manifest, (manifestChange E.order E.text p.1 p.2).Muted := fun p =>
    ⟨show "ManifestChange" ∈ calmTypes by decide, manifest_calm ..⟩
  have plain : ∀ {c : Change DiffOpts}, isDistReported c = false →
      (if isDistReported c then distRun E l r o c else c.check) = .ok x → c.check = .ok x := by
    intro c hc h
    rwa [hc, if_neg (by decide)] at h
  cases ev with
  | same =>
    cases k with
    | jar => exact shows_dist_super o (f := f) rfl rfl (by trivial) (plain rfl hx)
    | cls => exact shows_dist_super o (f := f) rfl rfl (by trivial) (plain rfl hx)
    | text => exact shows_dist_super o (f := f) rfl rfl (text_calm l r f) (plain rfl hx)
    | manifest => exact shows_dist_super o (f := f) rfl rfl (by trivial) (plain rfl hx)
    | other => exact shows_dist_super o (f := f) rfl rfl (by trivial) (plain rfl hx)
  | left => cases k <;> exact shows_dist_super o (f := f) (kids := []) rfl rfl trivial (plain rfl hx)
  | right => cases k <;> exact shows_dist_super o (f := f) (kids := []) rfl rfl trivial (plain rfl hx)
  | diff =>
    cases k with
    | text => exact shows_dist_super o (f := f) rfl rfl (text_calm l r f) (plain rfl hx)
    | manifest =>
      exact shows_dist_super o (f := f) rfl rfl (orRaise_calm _ _ hman) (plain rfl hx)
    | other => exact shows_dist_super o (f := f) (kids := []) rfl rfl trivial (plain rfl hx)
    | jar =>
      have h1 : isDistReported (distObject E l r f .diff .jar) = true := rfl
      rw [h1, if_pos rfl, distRun, distReportCheck,
        if_pos (show (distObject E l r f .diff .jar).hdr.typeName = "DistJarChange" from rfl)] at hx
      have h2 : (distObject E l r f .diff .jar).hdr.entry = some f := rfl
      rw [h2] at hx
      simp only at hx
      cases hb : bothFiles E.openJar l r f with
      | error e => rw [hb] at hx; simp [Except.map] at hx
      | ok p =>
        obtain ⟨a, b⟩ := p
        rw [hb] at hx
        simp only at hx
        cases hj : jarReportCheck E.toJarEnv a b o with
        | error e => rw [hj] at hx; simp [Except.map] at hx
        | ok d =>
          rw [hj] at hx
          simp only [Except.map, Except.ok.injEq] at hx
          subst hx
          exact (shows_dist_jar _ f).weaken fun _ => ⟨rfl, .inl rfl⟩
    | cls =>
      have h1 : isDistReported (distObject E l r f .diff .cls) = true := rfl
      rw [h1, if_pos rfl, distRun, distReportCheck,
        if_neg (show ¬ (distObject E l r f .diff .cls).hdr.typeName = "DistJarChange" from
          show ¬ "DistClassChange" = "DistJarChange" by decide)] at hx
      cases hc : (distObject E l r f .diff .cls).check with
      | error e => rw [hc] at hx; simp [Except.map] at hx
      | ok d =>
        rw [hc] at hx
        simp only [Except.map, Except.ok.injEq] at hx
        have h2 := Change.check_hdr _ _ hc
        have h3 : d.hdr.kind = .plain := by rw [h2]; rfl
        have h4 : d.hdr.entry = some f := by rw [h2]; rfl
        have h5 : d.hdr.typeName = "DistClassChange" := by rw [h2]; rfl
        subst hx
        rw [Change.squash]
        simp only [h3]
        rw [Change.mkSquashed, distTreeOf, h4, h5, if_neg (by decide)]
        exact (shows_dist_class _ f).weaken fun _ => by simp

/-- What a page needs to know of the trees. -/
theorem dist_trees (E : DistEnv) (l r : Forest) (shallow : Bool) (o : DiffOpts)
    (cs : List (Change DiffOpts)) (hc : ∀ c ∈ cs, ∃ p, c = distEntryChange E l r shallow p) (b : Bool)
    (cs' : List (Change DiffOpts)) (b' : Bool) (h : seqLoop (distJobs E l r o) cs b = .ok (cs', b')) :
    (cs'.map (distTreeOf o)).map (fun t => (headingOf Tree.type (fun t => distOrig t.child) "SquashedChange" t,
        t.child.entry)) = cs.map (fun c => (c.hdr.typeName, c.hdr.entry.getD [])) ∧
    ∀ t ∈ cs'.map (distTreeOf o), ∃ ev f k, distEntryChange E l r shallow (ev, f) ∈ cs ∧
      DistKindOf shallow f k ∧
      ShowsEntry distOrig (ev = .diff ∧ (k = .jar ∨ k = .cls)) t (distClass ev k) f := by
  induction cs generalizing b cs' with
  | nil =>
    simp only [seqLoop, Except.ok.injEq, Prod.mk.injEq] at h
    rw [← h.1]
    exact ⟨rfl, by simp⟩
  | cons c cs ih =>
    simp only [seqLoop] at h
    cases hx : (if (distJobs E l r o).isReport c then (distJobs E l r o).run c
        else (distJobs E l r o).check c) with
    | error e => rw [hx] at h; simp at h
    | ok x =>
      rw [hx] at h
      simp only at h
      cases hr : seqLoop (distJobs E l r o) cs (b || (distJobs E l r o).isChange x) with
      | error e => rw [hr] at h; simp at h
      | ok p =>
        obtain ⟨ys, b1⟩ := p
        rw [hr] at h
        simp only [Except.ok.injEq, Prod.mk.injEq] at h
        obtain ⟨ih1, ih2⟩ := ih (fun c hc' => hc c (List.mem_cons_of_mem _ hc')) _ _ (h.2 ▸ hr)
        obtain ⟨⟨ev, f⟩, rfl⟩ := hc c (List.mem_cons_self ..)
        obtain ⟨k, hk, _⟩ := distKind_unique shallow f
        have h1 := shows_dist_event E l r shallow o ev f k hk hx
        obtain ⟨h2, h3, _⟩ := C74_entry E l r shallow ev f k hk
        rw [← h.1, List.map_cons]
        constructor
        · rw [List.map_cons, List.map_cons, ih1, h1.heading, h1.entry, h2, h3]
          rfl
        · intro t ht
          rcases List.mem_cons.1 ht with rfl | ht
          · exact ⟨ev, f, k, List.mem_cons_self .., hk, h1⟩
          · obtain ⟨ev', f', k', h4, h5⟩ := ih2 t ht
            exact ⟨ev', f', k', List.mem_cons_of_mem _ h4, h5⟩

/-! ### The page -/

/-- The page of a distribution. -/
theorem fold_distPage (f : PageFrame) (children : List Tree) {e : Tree → List Str}
    (h : ∀ t ∈ children, Adds (treeFrags t) (e t)) :
    ((distPage f children).foldr fragStep ([], [], [])).2.2 =
      (reportGroups Tree.type (fun t => distOrig t.child) (fun t => t.child.entry) "SquashedChange" distOrder
        children).map fun g => ((headingLabel g.1).toList, g.2.flatMap e) := by
  rw [distPage, pageFrags, List.foldr_append, List.foldr_append]
  rw [shows_nothing_head _ "DistReport" rfl]
  have h1 : [tg "div id=\"report-outro\"", tg "/div", tg "/body", tg "/html"].foldr fragStep ([], [], []) =
      ([], [], []) := by decide +kernel
  rw [h1, fold_groups (e := e) (fun g hg t ht => ?_), List.append_nil]
  have := (C153_shown Tree.type (fun t => distOrig t.child) (fun t => t.child.entry) "SquashedChange"
    distOrder children (t := g.1) (cs := g.2) hg).1 t ht
  exact h t this.1

/-! ### C171 -/

/-- The heading that an event and the kind of a file call for. -/
def fileHeading : Event → DistKind → String
  | .left, .jar => "Distributed JAR Removed"
  | .left, .cls => "Distributed Java Class Removed"
  | .left, _ => "Distributed Content Removed"
  | .right, .jar => "Distributed JAR Added"
  | .right, .cls => "Distributed Java Class Added"
  | .right, _ => "Distributed Content Added"
  | _, .jar => "Distributed JAR"
  | _, .cls => "Distributed Java Class"
  | _, .text => "Distributed Text"
  | _, .manifest => "Distributed Manifest"
  | _, .other => "Distributed Content"

/-- The order of the headings. -/
def distPageHeadings : List String :=
  ["Distributed Java Class Added", "Distributed Java Class Removed", "Distributed Java Class",
   "Distributed JAR Added", "Distributed JAR Removed", "Distributed JAR",
   "Distributed Text", "Distributed Manifest",
   "Distributed Content Added", "Distributed Content Removed", "Distributed Content"]

/-- Under each heading are some files, in order; altogether they are the files of the two
distributions, each once and under the heading for what happened to it. -/
def ShowsDists (shallow : Bool) (l r : Forest) (shown : List (Str × List Str)) : Prop :=
  ∃ (evs : List (Event × Str)) (ps : List (Event × List Str)) (kind : Str → DistKind),
    Reports SameContent l r evs ps ∧ (∀ f, DistKindOf shallow f (kind f)) ∧
    (shown.flatMap fun g => g.2.map fun e => (g.1, e)).Perm
      (evs.map fun p => ((fileHeading p.1 (kind p.2)).toList, xmlEscape p.2)) ∧
    (shown.map Prod.fst).Sublist (distPageHeadings.map String.toList) ∧
    ∀ g ∈ shown, g.2 ≠ [] ∧ ∃ es : List Str, g.2 = es.map xmlEscape ∧ es.Pairwise (· < ·)

/-- C171 in full: for all distributions, whatever the names of their files. -/
def C171_full : Prop := ∀ (E : DistEnv) (l r : Forest) (shallow : Bool) (o : DiffOpts) (f : PageFrame)
  (page : List Frag), l.Ok → r.Ok → f.Plain → distReportPage E l r shallow o f = .ok page →
  ShowsDists shallow l r (shownOn (renderFrags page))

theorem fileHeading_label (ev : Event) (k : DistKind) : headingLabel (distClass ev k) = fileHeading ev k := by
  cases ev <;> cases k <;> decide +kernel

theorem distClass_listed (ev : Event) (k : DistKind) : distClass ev k ∈ distOrder := by
  cases ev <;> cases k <;> decide +kernel

theorem dist_labels : (distinct distOrder).map (fun t => (headingLabel t).toList) =
    distPageHeadings.map String.toList := by decide +kernel

/-- Where the page comes from. -/
theorem distReportPage_ok {E : DistEnv} {l r : Forest} {shallow : Bool} {o : DiffOpts} {f : PageFrame}
    {page : List Frag} (h : distReportPage E l r shallow o f = .ok page) :
    ∃ cs cs' b, distChildren E l r shallow = .ok cs ∧ seqLoop (distJobs E l r o) cs false = .ok (cs', b) ∧
      page = distPage f (cs'.map (distTreeOf o)) := by
  unfold distReportPage at h
  cases hc : distChildren E l r shallow with
  | error e => rw [hc] at h; simp at h
  | ok cs =>
    rw [hc] at h
    simp only at h
    cases hr : seqCheck (distJobs E l r o) cs with
    | error e => rw [hr] at h; simp at h
    | ok p =>
      obtain ⟨cs', b⟩ := p
      rw [hr] at h
      simp only [Except.ok.injEq] at h
      exact ⟨cs, cs', b, rfl, hr, h.symm⟩

/-- The paths that are reported have names. -/
theorem reporting_named {eq : Bytes → Int → Bytes → Int → Prop} {l r : Forest} (hl : l.Ok) (hr : r.Ok)
    {ev : Event} {p : List Str} (h : Reporting eq l r ev p) : p ≠ [] ∧ ∀ m ∈ p, IsName m := by
  cases ev with
  | left => obtain ⟨⟨b, t, h⟩, _⟩ := h; exact ⟨h.ne_nil, fileAt_names hl h⟩
  | right => obtain ⟨⟨b, t, h⟩, _⟩ := h; exact ⟨h.ne_nil, fileAt_names hr h⟩
  | same => obtain ⟨_, _, _, _, h, _⟩ := h; exact ⟨h.ne_nil, fileAt_names hl h⟩
  | diff => obtain ⟨_, _, _, _, h, _⟩ := h; exact ⟨h.ne_nil, fileAt_names hl h⟩

/-- Each event is about one path. -/
theorem reports_path {eq : Bytes → Int → Bytes → Int → Prop} {l r : Forest} {evs : List (Event × Str)}
    {ps : List (Event × List Str)} (h : Reports eq l r evs ps) {e : Event × Str} (he : e ∈ evs) :
    ∃ p, Denotes e.2 p ∧ Reporting eq l r e.1 p := by
  obtain ⟨i, hi, rfl⟩ := List.getElem_of_mem he
  have hj : i < ps.length := h.text.1 ▸ hi
  have hz : (evs[i], ps[i]) ∈ evs.zip ps := by
    rw [show (evs[i], ps[i]) = (evs.zip ps)[i]'(by simp; omega) by simp]
    exact List.getElem_mem _
  obtain ⟨h1, h2⟩ := h.text.2 _ hz
  refine ⟨ps[i].2, h2, (h.all _ _).1 ?_⟩
  rw [show evs[i].1 = ps[i].1 from h1]
  exact List.getElem_mem hj

theorem reports_names {eq : Bytes → Int → Bytes → Int → Prop} {l r : Forest} (hl : l.Ok) (hr : r.Ok)
    {evs : List (Event × Str)} {ps : List (Event × List Str)} (h : Reports eq l r evs ps) :
    (evs.map Prod.snd).Nodup := by
  rw [List.Nodup, List.pairwise_map, List.pairwise_iff_getElem]
  intro i j hi hj hij he
  have hi' : i < ps.length := h.text.1 ▸ hi
  have hj' : j < ps.length := h.text.1 ▸ hj
  have key : ∀ i (hi : i < evs.length) (hi' : i < ps.length), Denotes evs[i].2 ps[i].2 ∧ ps[i].2 ≠ [] ∧
      ∀ m ∈ ps[i].2, IsName m := by
    intro i hi hi'
    have hz : (evs[i], ps[i]) ∈ evs.zip ps := by
      rw [show (evs[i], ps[i]) = (evs.zip ps)[i]'(by simp; omega) by simp]
      exact List.getElem_mem _
    exact ⟨(h.text.2 _ hz).2, reporting_named hl hr ((h.all _ _).1 (List.getElem_mem hi'))⟩
  obtain ⟨a1, a2, a3⟩ := key i hi hi'
  obtain ⟨b1, b2, b3⟩ := key j hj hj'
  rw [he] at a1
  have hp := denotes_unique a2 b2 a3 b3 a1 b1
  have ho := h.once
  rw [List.Nodup, List.pairwise_map, List.pairwise_iff_getElem] at ho
  exact ho i j hi' hj' hij hp

/-- `./` in front does not matter. -/
theorem denoted_kinds {shallow : Bool} {f : Str} {p : List Str} (h : Denotes f p) :
    (DistKindOf shallow f .jar ∨ DistKindOf shallow f .cls) ↔
      (DistKindOf shallow (slashed p) .jar ∨ DistKindOf shallow (slashed p) .cls) := by
  have key : ∀ sfx : List String, (∀ s ∈ sfx, '/' ∉ s.toList) →
      (EndsIn f sfx ↔ EndsIn (slashed p) sfx) := by
    intro sfx hs
    rcases h with rfl | rfl
    · exact Iff.rfl
    · constructor
      · rintro ⟨s, hm, q, hq⟩
        refine ⟨s, hm, ?_⟩
        rcases List.append_eq_append_iff.1 hq with ⟨a, _, ha⟩ | ⟨a, ha, hb⟩
        · exact ⟨a, ha⟩
        · have hd : "./".toList = ['.', '/'] := by decide
          have : a = [] := by
            cases hl : a.getLast? with
            | none => exact List.getLast?_eq_none_iff.1 hl
            | some c =>
              have h1 : ("./".toList).getLast? = some c := by rw [ha, List.getLast?_append, hl]; rfl
              rw [hd] at h1
              simp only [List.getLast?_cons_cons, List.getLast?_singleton, Option.some.injEq] at h1
              refine absurd ?_ (hs s hm)
              rw [hb, h1]
              exact List.mem_append_left _ (List.mem_of_getLast? hl)
          rw [this, List.nil_append] at hb
          exact ⟨[], hb.symm⟩
      · rintro ⟨s, hm, q, hq⟩
        exact ⟨s, hm, "./".toList ++ q, by rw [hq, List.append_assoc]⟩
  have h1 := key jarSuffixes (by decide +kernel)
  have h2 := key [".class"] (by decide +kernel)
  simp only [DistKindOf, h1, h2]

/-- C171, proved part: no name is a file on one side and a directory on the other, files of the same
size and time are the same, and no JAR or class that both distributions have with different contents
has quotes in its path. -/
theorem C171_partial (E : DistEnv) (l r : Forest) (shallow : Bool) (hl : l.Ok) (hr : r.Ok)
    (hc : NoClash l r) (hs : ∀ p b c t, FileAt l p b t → FileAt r p c t → b.length = c.length → b = c)
    (hq : ∀ p b t c u, FileAt l p b t → FileAt r p c u → b ≠ c →
      DistKindOf shallow (slashed p) .jar ∨ DistKindOf shallow (slashed p) .cls → '"' ∉ slashed p)
    (o : DiffOpts) (f : PageFrame) (hf : f.Plain) (page : List Frag)
    (h : distReportPage E l r shallow o f = .ok page) :
    ShowsDists shallow l r (shownOn (renderFrags page)) := by
  obtain ⟨cs, cs', b, h1, h5, rfl⟩ := distReportPage_ok h
  have hnone : (compareDirs l r).2 = none := by
    unfold distChildren at h1
    split at h1
    · simp at h1
    · rename_i he; rw [he]
  obtain ⟨evs, ps, he, h2⟩ := C59_partial l r hl hr hc ((C59_subdirs l r hl hr).1.1 hnone) hs
  obtain ⟨cs₀, h1', _, h3, _⟩ := C74_collected E l r shallow evs he
  obtain rfl : cs₀ = cs := by rw [h1] at h1'; exact (Except.ok.inj h1').symm
  have hfrom : ∀ c ∈ cs₀, ∃ p ∈ evs, c = distEntryChange E l r shallow p := by
    intro c hc
    obtain ⟨p, hp, rfl⟩ := List.mem_map.1 (h3.mem_iff.1 hc)
    exact ⟨p, hp, rfl⟩
  obtain ⟨h6, h7⟩ := dist_trees E l r shallow o cs₀
    (fun c hc => by obtain ⟨p, _, hp⟩ := hfrom c hc; exact ⟨p, hp⟩) false cs' b h5
  -- what is known of the names
  have hname : ∀ p ∈ evs, p.2 ≠ [] ∧ (p.1 = .diff → DistKindOf shallow p.2 .jar ∨ DistKindOf shallow p.2 .cls → '"' ∉ p.2) := by
    intro e hp
    obtain ⟨q, hd, hrep⟩ := reports_path h2 hp
    obtain ⟨n1, n2⟩ := reporting_named hl hr hrep
    have hsl := (slashed_last n1 n2).1
    have hdot : '"' ∉ "./".toList := by decide
    constructor
    · rcases hd with hd | hd
      · rw [hd]; exact hsl
      · rw [hd]; exact fun e => hsl (List.append_eq_nil_iff.1 e).2
    · intro hev hk
      have hno : '"' ∉ slashed q := by
        rw [hev] at hrep
        obtain ⟨b, t, c, u, hb, hc', hne⟩ := hrep
        exact hq q b t c u hb hc' hne ((denoted_kinds hd).1 hk)
      rcases hd with hd | hd
      · rw [hd]; exact hno
      · rw [hd, List.mem_append]; exact fun h => h.elim hdot hno
  -- the trees
  have hentry : ∀ t ∈ cs'.map (distTreeOf o), ∃ p ∈ evs, ∃ k, DistKindOf shallow p.2 k ∧
      ShowsEntry distOrig (p.1 = .diff ∧ (k = .jar ∨ k = .cls)) t (distClass p.1 k) p.2 := by
    intro t ht
    obtain ⟨ev, n, k, hm, hk, hs⟩ := h7 t ht
    obtain ⟨⟨ev', n'⟩, hp, he⟩ := hfrom _ hm
    obtain ⟨k', hk', _⟩ := distKind_unique shallow n'
    have e1 := C74_entry E l r shallow ev n k hk
    have e2 := C74_entry E l r shallow ev' n' k' hk'
    rw [he] at e1
    have e3 : n' = n := Option.some.inj (e2.2.1.symm.trans e1.2.1)
    subst e3
    obtain rfl : k' = k := by
      obtain ⟨_, _, hu⟩ := distKind_unique shallow n'
      exact (hu _ hk').trans (hu _ hk).symm
    obtain rfl : ev' = ev := event_eq (e2.2.2.1.symm.trans e1.2.2.1) (e2.2.2.2.symm.trans e1.2.2.2)
    exact ⟨(ev', n'), hp, k', hk', hs⟩
  have hclass : ∀ c ∈ treesClasses (cs'.map (distTreeOf o)), '"' ∉ c.toList := by
    intro c hc
    obtain ⟨t, ht, hc⟩ := mem_treesClasses.1 hc
    obtain ⟨p, _, k, _, hs⟩ := hentry t ht
    exact (hs.classes c hc).quote
  have hlink : ∀ s ∈ treesLinks (cs'.map (distTreeOf o)), '"' ∉ s := by
    intro s hs
    obtain ⟨t, ht, hs⟩ := mem_treesLinks.1 hs
    obtain ⟨p, hp, k, hk, hst⟩ := hentry t ht
    rcases hst.links s hs with ⟨rfl, he, hor⟩ | hno
    · refine (hname p hp).2 he ?_
      rcases hor with rfl | rfl
      · exact .inl hk
      · exact .inr hk
    · exact hno
  have hclean := (runs_dist (b := false) hf (by simp) hclass hlink).clean
  have hadds : ∀ t ∈ cs'.map (distTreeOf o), Adds (treeFrags t) (entryShown t.child.entry) := by
    intro t ht
    obtain ⟨p, _, k, _, hs⟩ := hentry t ht
    rw [hs.entry]
    exact hs.adds
  rw [shownOn_render hclean, fold_distPage f _ hadds]
  -- the groups
  obtain ⟨kind, hkind⟩ : ∃ kind : Str → DistKind, ∀ n, DistKindOf shallow n (kind n) :=
    ⟨fun n => Classical.choose (distKind_unique shallow n),
      fun n => (Classical.choose_spec (distKind_unique shallow n)).1⟩
  have hpairs : (cs₀.map fun c => (c.hdr.typeName, c.hdr.entry.getD [])).Perm
      (evs.map fun p => (distClass p.1 (kind p.2), p.2)) := by
    refine (h3.map _).trans ?_
    rw [List.map_map]
    refine List.Perm.of_eq (List.map_congr_left fun p _ => ?_)
    obtain ⟨e1, e2, _⟩ := C74_entry E l r shallow p.1 p.2 (kind p.2) (hkind p.2)
    simp only [Function.comp]
    rw [e1, e2]
    rfl
  have hg := groups_shown (cls := fun p => distClass p.1 (kind p.2)) (extra := none)
    (order := distOrder) (fun t ht => by
      obtain ⟨p, hp, k, hk, hs⟩ := hentry t ht
      obtain ⟨k', _, hu⟩ := distKind_unique shallow p.2
      exact ⟨p, hp, by rw [hu _ (hkind p.2), ← hu k hk]; exact hs.weaken fun _ => trivial⟩)
    ((List.Perm.of_eq h6).trans hpairs) (reports_names hl hr h2) (fun p hp => (hname p hp).1)
    (fun p _ => .inl (distClass_listed p.1 (kind p.2)))
  refine ⟨evs, ps, kind, h2, hkind, ?_, ?_, hg.2.2⟩
  · refine hg.1.trans (List.Perm.of_eq (List.map_congr_left fun p _ => ?_))
    rw [fileHeading_label]
  · rw [← dist_labels]
    have := hg.2.1
    rwa [Option.toList_none, List.append_nil] at this

/-- A class in a directory, whose path breaks out of its link. -/
def evilTree (access : Nat) : Forest :=
  .dir "\"><h2>x<".toList (.file "h2><a id=\".class".toList (tinyClass access).enc access .nil) .nil

theorem evilTree_ok (access : Nat) : (evilTree access).Ok := by
  simp only [evilTree, Forest.Ok, IsName, Forest.names]
  decide +kernel

theorem evil_dist : (match distReportPage demoDist (evilTree 1) (evilTree 0) false (jarOpts [] [])
      (bareFrame true) with
    | .ok page => some ((shownOn (renderFrags page)).map Prod.fst)
    | .error _ => none) = some ["Distributed Java Class".toList, "x".toList] := by decide +kernel

theorem C171_full_fails : ¬ C171_full := by
  intro h
  have hs := evil_dist
  cases hp : distReportPage demoDist (evilTree 1) (evilTree 0) false (jarOpts [] []) (bareFrame true) with
  | error e => rw [hp] at hs; simp at hs
  | ok page =>
    rw [hp] at hs
    simp only [Option.some.injEq] at hs
    obtain ⟨evs, ps, kind, _, _, _, h1, _⟩ := h demoDist _ _ _ _ _ page (evilTree_ok 1) (evilTree_ok 0)
      (bare_plain true) hp
    rw [hs] at h1
    have h2 := h1.subset (a := "x".toList) (by simp)
    revert h2
    decide +kernel

/-- Two distributions with a changed class, a changed text, a removed JAR and another file. -/
example : (match distReportPage demoDist
      (.file "B.class".toList (tinyClass 1).enc 0 (.file "a.txt".toList [97] 0 (.file "x.jar".toList [] 0
        (.file "<b>".toList [1] 0 .nil))))
      (.file "B.class".toList (tinyClass 0).enc 1 (.file "a.txt".toList [98] 1 (.file "<b>".toList [1] 0
        .nil))) false (jarOpts [] []) (bareFrame true) with
    | .ok page => some (shownOn (renderFrags page))
    | .error _ => none) = some [
      ("Distributed Java Class".toList, ["./B.class".toList]),
      ("Distributed JAR Removed".toList, ["x.jar".toList]),
      ("Distributed Text".toList, ["./a.txt".toList]),
      ("Distributed Content".toList, ["./&lt;b&gt;".toList])] := by
  decide +kernel

end Javatools
