import Verif.Model.DistReportMain
import Verif.Props.ReportMain
import Verif.Props.DistDiff
import Verif.Props.DistMp
/-
C144, C145: distdiff with `--report`, with and without worker processes.
-/
namespace Javatools

/-! ## What should be written -/

/-- The reports about the JARs and classes of two distributions, one file after the other. Those of a class are the
ones that classdiff would write, and those of a JAR the ones of jardiff, in a directory named after the file. -/
inductive DistReports (P : ReportEnv) (o : DiffOpts) (s : Change.ShowOpts) (E : DistEnv) (l r : Forest)
    (shallow : Bool) (dir : Str) (F : List Fmt) : List Str → List (Target × Page) → Prop where
  | nil : DistReports P o s E l r shallow dir F [] []
  | cls {f : Str} {fs : List Str} {x y : Bytes} {i j : ClassInfo} {c : Change Opts} {w ws : List (Target × Page)} :
      DistKindOf shallow f .cls → readEntry l f = .ok x → readEntry r f = .ok y →
      unpackClass E.lim (.bytes x) = .ok i → unpackClass E.lim (.bytes y) = .ok j →
      (javaClassChange E.T E.lim E.depth i j).check = .ok c →
      ReportsOf (pathJoin dir f) "JavaClassReport" F (c.textReport o.flags s)
        ((c.toJson o.flags s).renamed "JavaClassReport")
        (HtmlOf P o ((c.comap DiffOpts.flags).retype "JavaClassReport") (pathJoin dir f)) w →
      DistReports P o s E l r shallow dir F fs ws → DistReports P o s E l r shallow dir F (f :: fs) (w ++ ws)
  | jar {f : Str} {fs es : List Str} {x y : Bytes} {a b : Archive} {c d : Change DiffOpts}
      {w w' ws : List (Target × Page)} :
      DistKindOf shallow f .jar → readEntry l f = .ok x → readEntry r f = .ok y →
      E.openJar x = .ok a → E.openJar y = .ok b →
      (jarChange E.toJarEnv a b).check = .ok c → Brief o s c d → ReportedAre E.toJarEnv a b es →
      ClassReports P o s E.toJarEnv a b (pathJoin dir f) F es w →
      ReportOf P o s (pathJoin dir f) "JarReport" F d w' →
      DistReports P o s E l r shallow dir F fs ws → DistReports P o s E l r shallow dir F (f :: fs) (w ++ w' ++ ws)

/-- The lines for a file, without what changed inside a JAR or a class. -/
def distBriefLines (o : DiffOpts) (s : Change.ShowOpts) (x : Change DiffOpts) : List Str :=
  if x.hdr.typeName = "DistJarChange" ∨ x.hdr.typeName = "DistClassChange" then (x.indentChange o s 1).take 1
  else x.indentChange o s 1

/-- `d` is the comparison `c` of two distributions in brief: the verdict is the same, and so are the lines, apart from
those about the insides of JARs and classes. -/
def DistBrief (o : DiffOpts) (s : Change.ShowOpts) (c d : Change DiffOpts) : Prop :=
  d.isChange = c.isChange ∧ d.isIgnored o = c.isIgnored o ∧
  ∃ h b ys, c = .super h none b none ys ∧
    (d.indentChange o s 0 = c.indentChange o s 0 ∨
     ∃ H, c.indentChange o s 0 = H ++ ys.flatMap (fun y => y.indentChange o s 1) ∧
       d.indentChange o s 0 = H ++ ys.flatMap (distBriefLines o s))

/-! ## One file -/

namespace Change
variable {O : Type}

/-- The first line says whether there is a change, whether it is ignored, and what it is. -/
theorem take_lines (h h' : Hdr O) (b b' : Bool) (ys ys' : List (Change O)) (o : O) (s : ShowOpts) (n : Nat)
    (h1 : (super h none b none ys).isChange = (super h' none b' none ys').isChange)
    (h2 : (super h none b none ys).isIgnored o = (super h' none b' none ys').isIgnored o)
    (h3 : (super h none b none ys).getDescription = (super h' none b' none ys').getDescription) :
    ((super h none b none ys).indentChange o s n).take 1 = ((super h' none b' none ys').indentChange o s n).take 1 := by
  simp only [indentChange, h1, h2, h3]
  split
  · split
    · split <;> rfl
    · rfl
  · split <;> rfl
end Change

/-- What a turn makes of a file: the verdict, the lines and, if there are reports, the files. -/
structure Turned (o : DiffOpts) (s : Change.ShowOpts) (c x d : Change DiffOpts) : Prop where
  checked : c.check = .ok x
  change : d.isChange = x.isChange
  ignored : d.isIgnored o = x.isIgnored o
  lines : d.indentChange o s 1 = distBriefLines o s x

theorem distContent_described (name label : String) (ign : IgnoreRule DiffOpts) (f : Str) (b : Bool)
    (cs : List (Change DiffOpts)) (n : String) (b' : Bool) (cs' : List (Change DiffOpts)) :
    Change.Described (.super { (distContent name label ign f b cs).hdr with typeName := n } none b' none cs') := by
  intro g hg x
  have hg : some _ = some g := hg
  rw [← Option.some.inj hg]
  exact fun h => absurd (List.append_eq_nil_iff.1 (List.append_eq_nil_iff.1 (List.append_eq_nil_iff.1
    (List.append_eq_nil_iff.1 h).1).1).1).2 (by decide)

section
variable (P : ReportEnv) (E : DistEnv) (l r : Forest) (o : DiffOpts) (s : Change.ShowOpts)

/-- A class. -/
theorem distClass_or {R : Reporter} {dir : Str} {name : String} {F : List Fmt} (hR : Fresh R dir name F)
    (hF : F.Nodup) {shallow : Bool} {f : Str} (hk : DistKindOf shallow f .cls) :
    (∃ w x d, distOne P s R E l r o (distClassChange E l r f true) = (w, .ok d) ∧
      Turned o s (distClassChange E l r f true) x d ∧
      ∀ fs ws, DistReports P o s E l r shallow dir F fs ws → DistReports P o s E l r shallow dir F (f :: fs) (w ++ ws)) ∨
    (∃ w e, distOne P s R E l r o (distClassChange E l r f true) = (w, .error e) ∧
      ((distClassChange E l r f true).check = .error e ∨ Fault P e)) := by
  have hrep : isDistReported (distClassChange E l r f true) = true := rfl
  have hent : (distClassChange E l r f true).hdr.entry = some f := rfl
  have hty : ¬ (distClassChange E l r f true).hdr.typeName = "DistJarChange" := by
    show ¬ "DistClassChange" = "DistJarChange"
    decide
  unfold distOne distSubReport
  rw [if_pos hrep, hent]
  simp only [if_neg hty]
  cases hb : bothFiles (fun b => unpackClass E.lim (.bytes b)) l r f with
  | error e0 =>
    have hchk : (distClassChange E l r f true).check = .error e0 := by
      unfold distClassChange
      rw [hb]
      simp only [if_true, Except.map, orRaise, raising, distContent, Change.check, Change.checkAll]
    rw [hchk]
    exact .inr ⟨_, _, rfl, .inl rfl⟩
  | ok p =>
    cases hc : (javaClassChange E.T E.lim E.depth p.1 p.2).check with
    | error e0 =>
      have hchk : (distClassChange E l r f true).check = .error e0 := by
        unfold distClassChange
        rw [hb]
        simp only [if_true, Except.map, orRaise, distContent, Change.check, Change.checkAll, Change.comap_check, hc]
      rw [hchk]
      exact .inr ⟨_, _, rfl, .inl rfl⟩
    | ok c =>
      have hchk : (distClassChange E l r f true).check = .ok (.super (distClassChange E l r f true).hdr none
          (c.comap DiffOpts.flags).isChange none [c.comap DiffOpts.flags]) := by
        unfold distClassChange
        rw [hb]
        exact check_single _ _ _ _ _ (by rw [Change.comap_check, hc]; rfl)
      rw [hchk]
      simp only [Change.collect]
      rcases report_or P o s (hR.sub f "JavaClassReport") reportName_class hF
        ((c.comap DiffOpts.flags).retype "JavaClassReport") with ⟨q1, q2⟩ | ⟨e, q1, q2, -⟩
      · refine .inl ?_
        generalize Reporter.report P o s _ ((c.comap DiffOpts.flags).retype "JavaClassReport") = out at q1 q2
        obtain ⟨w, z⟩ := out
        simp only at q1 q2
        subst q1
        have hdsc := distContent_described "DistClassChange" "Distributed Java Class" (.orElse (filenameIgnored f)) f true []
          "DistClassReport" (c.comap DiffOpts.flags).isChange [c.comap DiffOpts.flags]
        obtain ⟨g1, g2, g3, -⟩ := Change.C36_squash _ o false hdsc
        refine ⟨w, _, _, rfl, ⟨hchk, ?_, ?_, ?_⟩, ?_⟩
        · exact g1
        · refine Eq.trans g2 ?_
          rw [single_isIgnored _ (filenameIgnored f) rfl rfl, single_isIgnored _ (filenameIgnored f) rfl rfl]
        · unfold distBriefLines
          rw [if_pos (.inr rfl)]
          refine (Change.squash_lines _ _ _ o s 1 rfl hdsc).trans (Change.take_lines _ _ _ _ _ _ o s 1 rfl ?_ rfl)
          rw [single_isIgnored _ (filenameIgnored f) rfl rfl, single_isIgnored _ (filenameIgnored f) rfl rfl]
        · intro fs ws hws
          unfold bothFiles at hb
          split at hb
          · cases hb
          · rename_i x hx
            split at hb
            · cases hb
            · rename_i i hi
              split at hb
              · cases hb
              · rename_i y hy
                split at hb
                · cases hb
                · rename_i j hj
                  rw [← Except.ok.inj hb] at hc
                  refine .cls hk hx hy hi hj hc ?_ hws
                  unfold ReportOf at q2
                  rw [Change.retype_text, Change.comap_text, Change.retype_json, Change.comap_json] at q2
                  exact q2
      · refine .inr ?_
        generalize Reporter.report P o s _ ((c.comap DiffOpts.flags).retype "JavaClassReport") = out at q1
        obtain ⟨w, z⟩ := out
        simp only at q1
        subst q1
        exact ⟨w, e, rfl, .inr q2⟩

/-- A JAR. -/
theorem distJar_or (hup : IsUpper E.up) (ho : IsSetOrder E.order) {R : Reporter} {dir : Str} {name : String}
    {F : List Fmt} (hR : Fresh R dir name F) (hF : F.Nodup) {shallow : Bool} {f : Str}
    (hk : DistKindOf shallow f .jar) :
    (∃ w x d, distOne P s R E l r o (distJarChange E l r f true) = (w, .ok d) ∧
      Turned o s (distJarChange E l r f true) x d ∧
      ∀ fs ws, DistReports P o s E l r shallow dir F fs ws → DistReports P o s E l r shallow dir F (f :: fs) (w ++ ws)) ∨
    (∃ w e, distOne P s R E l r o (distJarChange E l r f true) = (w, .error e) ∧
      ((distJarChange E l r f true).check = .error e ∨ Fault P e)) := by
  have hrep : isDistReported (distJarChange E l r f true) = true := rfl
  have hent : (distJarChange E l r f true).hdr.entry = some f := rfl
  have hty : (distJarChange E l r f true).hdr.typeName = "DistJarChange" := rfl
  unfold distOne distSubReport
  rw [if_pos hrep, hent]
  simp only [if_pos hty]
  cases hb : bothFiles E.openJar l r f with
  | error e0 =>
    have hchk : (distJarChange E l r f true).check = .error e0 := by
      unfold distJarChange
      rw [hb]
      simp only [if_true, Except.map, orRaise, raising, distContent, Change.check, Change.checkAll]
    exact .inr ⟨_, _, rfl, .inl hchk⟩
  | ok p =>
    obtain ⟨a, b⟩ := p
    simp only
    rcases jarReport_or P (hR.sub f "JarReport") hF o s E.toJarEnv a b with
      ⟨d, cs, w, w', q1, q2, q3, q4, q5⟩ | ⟨e, q1, q2⟩
    · obtain ⟨c, q6, q7⟩ := jarReport_brief q1 s
      rw [q3]
      have hchk : (distJarChange E l r f true).check =
          .ok (.super (distJarChange E l r f true).hdr none c.isChange none [c]) := by
        unfold distJarChange
        rw [hb]
        exact check_single _ _ _ _ _ q6
      have hdsc := distContent_described "DistJarChange" "Distributed JAR" (.orElse (filenameIgnored f)) f true []
        "DistJarReport" d.isChange [d]
      obtain ⟨g1, g2, g3, -⟩ := Change.C36_squash _ o false hdsc
      have hch : ∀ (h : Hdr DiffOpts), h.kind = .plain → ∀ x ys, (Change.super h none x none ys).isChange = x :=
        fun h hk x ys => by simp only [Change.isChange, hk]
      refine .inl ⟨_, _, _, rfl, ⟨hchk, ?_, ?_, ?_⟩, ?_⟩
      · exact g1.trans (by rw [hch _ rfl, hch _ rfl, q7.1])
      · refine Eq.trans g2 ?_
        rw [single_isIgnored _ (filenameIgnored f) rfl rfl, single_isIgnored _ (filenameIgnored f) rfl rfl,
          q7.1, q7.2.1]
      · unfold distBriefLines
        rw [if_pos (.inl rfl)]
        refine (Change.squash_lines _ _ _ o s 1 rfl hdsc).trans (Change.take_lines _ _ _ _ _ _ o s 1 ?_ ?_ ?_)
        · rw [hch _ rfl, hch _ rfl, q7.1]
        · rw [single_isIgnored _ (filenameIgnored f) rfl rfl, single_isIgnored _ (filenameIgnored f) rfl rfl,
            q7.1, q7.2.1]
        · rw [q7.1]
          rfl
      · intro fs ws hws
        unfold bothFiles at hb
        split at hb
        · cases hb
        · rename_i x hx
          split at hb
          · cases hb
          · rename_i i hi
            split at hb
            · cases hb
            · rename_i y hy
              split at hb
              · cases hb
              · rename_i j hj
                obtain ⟨rfl, rfl⟩ := Prod.mk.inj (Except.ok.inj hb)
                exact .jar hk hx hy hi hj q6 q7 (reported_are hup ho q2) q4 q5 hws
    · refine .inr ?_
      generalize jarReportRun P s _ E.toJarEnv o a b = out at q1
      obtain ⟨w, z⟩ := out
      simp only at q1
      subst q1
      refine ⟨w, e, rfl, q2.imp_left fun q2 => ?_⟩
      unfold distJarChange
      rw [hb]
      simp only [if_true, Except.map, orRaise, distContent, Change.check, Change.checkAll, q2]
/-- Any file. -/
theorem distOne_or (hup : IsUpper E.up) (ho : IsSetOrder E.order) {R : Reporter} {dir : Str} {name : String}
    {F : List Fmt} (hR : Fresh R dir name F) (hF : F.Nodup) {shallow : Bool} (p : Event × Str) :
    (∃ w x d, distOne P s R E l r o (distEntryChange E l r shallow p) = (w, .ok d) ∧
      Turned o s (distEntryChange E l r shallow p) x d ∧
      ∀ fs ws, DistReports P o s E l r shallow dir F fs ws → DistReports P o s E l r shallow dir F
        ((if isDistReported (distEntryChange E l r shallow p) then [p.2] else []) ++ fs) (w ++ ws)) ∨
    (∃ w e, distOne P s R E l r o (distEntryChange E l r shallow p) = (w, .error e) ∧
      ((distEntryChange E l r shallow p).check = .error e ∨ Fault P e)) := by
  obtain ⟨ev, f⟩ := p
  obtain ⟨k, hk, -⟩ := distKind_unique shallow f
  obtain ⟨hname, -, -, hch⟩ := C74_entry E l r shallow ev f k hk
  by_cases hrep : isDistReported (distEntryChange E l r shallow (ev, f)) = true
  · rw [if_pos hrep]
    unfold isDistReported at hrep
    rw [Bool.and_eq_true, Bool.or_eq_true, decide_eq_true_iff, decide_eq_true_iff, hname, hch] at hrep
    obtain ⟨hcls, hne⟩ := hrep
    have hev : ev = .diff ∧ (k = .jar ∨ k = .cls) := by
      clear hname hch hk
      cases ev <;> cases k <;> simp_all [distClass]
    obtain ⟨rfl, rfl | rfl⟩ := hev
    · rw [distEntryChange_eq E l r shallow .diff f _ hk]
      exact distJar_or P E l r o s hup ho hR hF hk
    · rw [distEntryChange_eq E l r shallow .diff f _ hk]
      exact distClass_or P E l r o s hR hF hk
  · rw [if_neg hrep]
    unfold distOne
    rw [if_neg hrep]
    cases hc : (distEntryChange E l r shallow (ev, f)).check with
    | error e => exact .inr ⟨_, e, rfl, .inl rfl⟩
    | ok x =>
      refine .inl ⟨_, x, x, rfl, ⟨hc, rfl, rfl, ?_⟩, fun _ _ h => h⟩
      unfold distBriefLines
      have hh := Change.check_hdr _ _ hc
      rw [hh]
      split
      · rename_i ht
        unfold isDistReported at hrep
        rw [Bool.and_eq_true, Bool.or_eq_true, decide_eq_true_iff, decide_eq_true_iff, hch] at hrep
        have hsame : ev = .same := by
          cases ev with
          | same => rfl
          | left => exact absurd ⟨ht, by simp⟩ hrep
          | right => exact absurd ⟨ht, by simp⟩ hrep
          | diff => exact absurd ⟨ht, by simp⟩ hrep
        subst hsame
        rw [hname] at ht
        have hk' : k = .jar ∨ k = .cls := by
          clear hname hch hk
          cases k <;> simp_all [distClass]
        have hsup : ∃ hd : Hdr DiffOpts, x = .super hd none false none [] := by
          rw [distEntryChange_eq E l r shallow .same f _ hk] at hc
          rcases hk' with rfl | rfl
          · exact ⟨_, (Except.ok.inj hc).symm⟩
          · exact ⟨_, (Except.ok.inj hc).symm⟩
        obtain ⟨hd, rfl⟩ := hsup
        simp only [Change.indentChange, Change.indentAll]
        split
        · split
          · split <;> rfl
          · rfl
        · split <;> rfl
      · rfl

/-- The files that there are reports about. -/
def distReportedEntries (cs : List (Change DiffOpts)) : List Str :=
  cs.filterMap fun c => if isDistReported c then c.hdr.entry else none

theorem distReportedEntries_cons (shallow : Bool) (p : Event × Str) (cs : List (Change DiffOpts)) :
    distReportedEntries (distEntryChange E l r shallow p :: cs) =
      (if isDistReported (distEntryChange E l r shallow p) then [p.2] else []) ++ distReportedEntries cs := by
  obtain ⟨ev, f⟩ := p
  obtain ⟨k, hk, -⟩ := distKind_unique shallow f
  obtain ⟨-, hent, -, -⟩ := C74_entry E l r shallow ev f k hk
  unfold distReportedEntries
  rw [List.filterMap_cons]
  by_cases h : isDistReported (distEntryChange E l r shallow (ev, f)) = true
  · rw [if_pos h, if_pos h, hent]
    rfl
  · rw [if_neg h, if_neg h]
    rfl

/-- All of them. -/
theorem distLoop_or (hup : IsUpper E.up) (ho : IsSetOrder E.order) {R : Reporter} {dir : Str} {name : String}
    {F : List Fmt} (hR : Fresh R dir name F) (hF : F.Nodup) {shallow : Bool} (cs : List (Change DiffOpts))
    (hcs : ∀ c ∈ cs, ∃ p, c = distEntryChange E l r shallow p) (b : Bool) :
    (∃ w xs ys b', distLoop P s R E l r o cs b = (w, .ok (xs, b')) ∧ Change.checkAll cs b = .ok (ys, b') ∧
      xs.map Change.isChange = ys.map Change.isChange ∧
      xs.map (fun x => x.isIgnored o) = ys.map (fun x => x.isIgnored o) ∧
      xs.flatMap (fun x => x.indentChange o s 1) = ys.flatMap (distBriefLines o s) ∧
      DistReports P o s E l r shallow dir F (distReportedEntries cs) w) ∨
    (∃ w e, distLoop P s R E l r o cs b = (w, .error e) ∧ (Change.checkAll cs b = .error e ∨ Fault P e)) := by
  induction cs generalizing b with
  | nil => exact .inl ⟨[], [], [], b, rfl, rfl, rfl, rfl, rfl, .nil⟩
  | cons c cs ih =>
    obtain ⟨p, rfl⟩ := hcs c List.mem_cons_self
    rw [distLoop, Change.checkAll, distReportedEntries_cons]
    rcases distOne_or P E l r o s hup ho hR hF p with ⟨w, x, d, h1, h2, h3⟩ | ⟨w, e, h1, h2⟩
    · rw [h1, h2.checked]
      simp only
      rw [h2.change]
      rcases ih (fun y hy => hcs y (List.mem_cons_of_mem _ hy)) (b || x.isChange) with
        ⟨ws, xs, ys, b', g1, g2, g3, g4, g5, g6⟩ | ⟨ws, e, g1, g2⟩
      · rw [g1, g2]
        refine .inl ⟨_, _, _, _, rfl, rfl, ?_, ?_, ?_, h3 _ _ g6⟩
        · rw [List.map_cons, List.map_cons, g3, h2.change]
        · rw [List.map_cons, List.map_cons, g4, h2.ignored]
        · rw [List.flatMap_cons, List.flatMap_cons, g5, h2.lines]
      · rw [g1]
        refine .inr ⟨_, e, rfl, g2.imp_left fun g2 => by rw [g2]⟩
    · rw [h1]
      exact .inr ⟨_, e, rfl, h2.imp_left fun h2 => by rw [h2]⟩

theorem allIgnored_congr {xs ys : List (Change DiffOpts)} (h1 : xs.map Change.isChange = ys.map Change.isChange)
    (h2 : xs.map (fun x => x.isIgnored o) = ys.map (fun x => x.isIgnored o)) :
    Change.allIgnored o xs = Change.allIgnored o ys ∧ xs.isEmpty = ys.isEmpty := by
  induction xs generalizing ys with
  | nil =>
    cases ys with
    | nil => exact ⟨rfl, rfl⟩
    | cons y ys => simp at h1
  | cons x xs ih =>
    cases ys with
    | nil => simp at h1
    | cons y ys =>
      simp only [List.map_cons, List.cons.injEq] at h1 h2
      simp only [Change.allIgnored, (ih h1.2 h2.2).1, h1.1, h2.1, List.isEmpty_cons, and_self]

/-- The comparison in brief. -/
theorem dist_brief (a b : Str) (h : Hdr DiffOpts) (c : Bool) (xs ys : List (Change DiffOpts))
    (hd : h = { typeName := "DistChange", label := "Distribution".toList })
    (h1 : xs.map Change.isChange = ys.map Change.isChange)
    (h2 : xs.map (fun x => x.isIgnored o) = ys.map (fun x => x.isIgnored o))
    (h3 : xs.flatMap (fun x => x.indentChange o s 1) = ys.flatMap (distBriefLines o s)) :
    DistBrief o s (nameDist a b (.super h none c none ys)) (nameDist a b (distReport (xs, c))) := by
  subst hd
  obtain ⟨g1, g2⟩ := allIgnored_congr o h1 h2
  have hi : (nameDist a b (distReport (xs, c))).isIgnored o = (nameDist a b
      (.super { typeName := "DistChange", label := "Distribution".toList } none c none ys)).isIgnored o := by
    simp only [nameDist, distReport, Change.isIgnored, Change.isChange, g1, g2]
    rfl
  refine ⟨rfl, hi, _, _, ys, rfl, ?_⟩
  simp only [nameDist, distReport] at hi
  simp only [nameDist, distReport, Change.indentChange, hi, Change.indentAll_flatMap, h3]
  have hc : ∀ (h h' : Hdr DiffOpts), h.kind = .plain → h'.kind = .plain → ∀ zs zs',
      (Change.super h none c none zs).isChange = (Change.super h' none c none zs').isChange := by
    intro h h' k k' zs zs'
    simp only [Change.isChange, k, k']
  have hdsc : ∀ (h h' : Hdr DiffOpts), h.kind = .plain → h'.kind = .plain → h.describe = h'.describe →
      h.label = h'.label → ∀ zs zs',
      (Change.super h none c none zs).getDescription = (Change.super h' none c none zs').getDescription := by
    intro h h' k k' e e' zs zs'
    simp only [Change.getDescription, Change.isChange, k, k', e, e']
  generalize hX : Change.super { typeName := "DistReport", label := _, describe := _ } none c none xs = X
  generalize hY : Change.super { typeName := "DistChange", label := _, describe := _ } none c none ys = Y
  have e1 : X.isChange = Y.isChange := by rw [← hX, ← hY]; exact hc _ _ rfl rfl _ _
  have e2 : X.getDescription = Y.getDescription := by rw [← hX, ← hY]; exact hdsc _ _ rfl rfl rfl rfl xs ys
  rw [e1, e2]
  split
  · split
    · split
      · exact .inr ⟨[_], rfl, rfl⟩
      · exact .inl rfl
    · exact .inr ⟨[_], rfl, rfl⟩
  · split
    · exact .inr ⟨[_], rfl, rfl⟩
    · exact .inl rfl

theorem reportName_dist : ReportName "DistReport".toList := ⟨by decide, by decide⟩

theorem distChildren_entries {shallow : Bool} {cs : List (Change DiffOpts)} (h : distChildren E l r shallow = .ok cs) :
    ∃ evs, compareDirs l r = (evs, none) ∧ cs.Perm (evs.map (distEntryChange E l r shallow)) := by
  unfold distChildren at h
  split at h
  · cases h
  · rename_i evs he
    cases h
    exact ⟨evs, he, C37_permutation _ _ _⟩

/-- The whole comparison with reports, without processes. -/
theorem distSeq_or (hup : IsUpper E.up) (ho : IsSetOrder E.order) {R : Reporter} {dir : Str}
    {F : List Fmt} (hR : Fresh R dir "DistReport" F) (hF : F.Nodup) (shallow : Bool) (a b : Str) :
    (∃ c d cs w w', (nameDist a b (distChange E l r shallow)).check = .ok c ∧ DistBrief o s c d ∧
      distChildren E l r shallow = .ok cs ∧ distSeqRun P s R E l r o shallow a b = (w ++ w', .ok d) ∧
      DistReports P o s E l r shallow dir F (distReportedEntries cs) w ∧ ReportOf P o s dir "DistReport" F d w') ∨
    (∃ e, (distSeqRun P s R E l r o shallow a b).2 = .error e ∧
      ((nameDist a b (distChange E l r shallow)).check = .error e ∨ Fault P e)) := by
  unfold distSeqRun distChange
  cases hc : distChildren E l r shallow with
  | error e => exact .inr ⟨e, rfl, .inl rfl⟩
  | ok cs =>
    obtain ⟨evs, -, hperm⟩ := distChildren_entries E l r hc
    simp only [orRaise, nameDist, Change.check]
    rcases distLoop_or P E l r o s hup ho hR hF (shallow := shallow) cs (fun x hx => by
      obtain ⟨p, -, hp⟩ := List.mem_map.1 (hperm.mem_iff.1 hx)
      exact ⟨p, hp.symm⟩) false with ⟨w, xs, ys, c, h1, h2, h3, h4, h5, h6⟩ | ⟨w, e, h1, h2⟩
    · rw [h1, h2]
      simp only [distReported, reported]
      rcases report_or P o s hR reportName_dist hF (nameDist a b (distReport (xs, c))) with
        ⟨q1, q2⟩ | ⟨e, q1, q2, -⟩
      · refine .inl ?_
        generalize Reporter.report P o s R (nameDist a b (distReport (xs, c))) = out at q1 q2
        obtain ⟨w', z⟩ := out
        simp only at q1 q2
        subst q1
        exact ⟨_, _, _, w, w', rfl, dist_brief o s a b _ c xs ys rfl h3 h4 h5, rfl, rfl, h6, q2⟩
      · refine .inr ⟨e, ?_, .inr q2⟩
        generalize Reporter.report P o s R (nameDist a b (distReport (xs, c))) = out at q1
        obtain ⟨w', z⟩ := out
        simp only at q1
        subst q1
        rfl
    · rw [h1]
      exact .inr ⟨e, rfl, h2.imp_left fun h2 => by rw [h2]⟩

/-! ## With processes -/

/-- Setting up a reporter beforehand does not change what is reported. -/
theorem setup_fresh {R : Reporter} {dir : Str} {name : String} {F : List Fmt} (hR : Fresh R dir name F) :
    ∃ R', R.setup P.cwd = .ok R' ∧ distWrites P s R' E l r o = distWrites P s R E l r o ∧
      ∀ a b w out, distReported P s R' o a b w out = distReported P s R o a b w out := by
  obtain ⟨cs, -, ⟨-, h⟩ | h⟩ := setup_eq P.cwd R hR.crumbs
  · exact absurd hR.instances h
  · refine ⟨_, h, rfl, fun a b w out => ?_⟩
    have : Reporter.run P.cwd { R with instances := some (R.formats.map fun f => ⟨f, R.basedir, cs⟩) } =
        R.run P.cwd := by
      unfold Reporter.run
      rw [hR.instances]
      simp only [h]
    unfold distReported reported Reporter.report
    rw [this]

/-- The loop as the operations of the workers. -/
theorem distLoop_seq (R : Reporter) (cs : List (Change DiffOpts)) (b : Bool) :
    (∀ w xs b', distLoop P s R E l r o cs b = (w, .ok (xs, b')) →
      ∃ zs, seqLoop (distWrites P s R E l r o) (cs.map fun c => (c, [])) b = .ok (zs, b') ∧
        zs.map Prod.fst = xs ∧ zs.flatMap Prod.snd = w) ∧
    (∀ w e, distLoop P s R E l r o cs b = (w, .error e) →
      seqLoop (distWrites P s R E l r o) (cs.map fun c => (c, [])) b = .error e) := by
  induction cs generalizing b with
  | nil =>
    refine ⟨fun w xs b' h => ?_, fun w e h => ?_⟩
    · simp only [distLoop, Prod.mk.injEq, Except.ok.injEq] at h
      obtain ⟨rfl, rfl, rfl⟩ := h
      exact ⟨[], rfl, rfl, rfl⟩
    · simp [distLoop] at h
  | cons c cs ih =>
    have hone : (if (distWrites P s R E l r o).isReport (c, []) then (distWrites P s R E l r o).run (c, [])
        else (distWrites P s R E l r o).check (c, [])) =
        match distOne P s R E l r o c with
        | (_, .error e) => .error e
        | (w, .ok d) => .ok (d, w) := by
      unfold distOne
      show (if isDistReported c then (match distSubReport P s R E l r o c with
        | (_, .error e) => .error e
        | (w, .ok d) => .ok (d.squash false (some o), w)) else c.check.map fun c => (c, [])) = _
      by_cases hr : isDistReported c = true
      · rw [if_pos hr, if_pos hr]
        obtain ⟨w, d | d⟩ := distSubReport P s R E l r o c <;> rfl
      · rw [if_neg hr, if_neg hr]
        cases c.check <;> rfl
    rw [List.map_cons, distLoop, seqLoop, hone]
    obtain ⟨w1, e1 | d⟩ := distOne P s R E l r o c
    · refine ⟨fun w xs b' h => by simp at h, fun w e h => ?_⟩
      simp only [Prod.mk.injEq, Except.error.injEq] at h
      rw [h.2]
    · simp only
      obtain ⟨i1, i2⟩ := ih (b || d.isChange)
      have hd : (distWrites P s R E l r o).isChange (d, w1) = d.isChange := rfl
      rw [hd]
      cases hl : distLoop P s R E l r o cs (b || d.isChange) with
      | mk w2 z =>
        cases z with
        | error e2 =>
          rw [i2 w2 e2 hl]
          refine ⟨fun w xs b' h => by simp at h, fun w e h => ?_⟩
          simp only [Prod.mk.injEq, Except.error.injEq] at h
          rw [h.2]
        | ok q =>
          obtain ⟨xs, b'⟩ := q
          obtain ⟨zs, h1, h2, h3⟩ := i1 w2 xs b' hl
          rw [h1]
          refine ⟨fun w ys b'' h => ?_, fun w e h => by simp at h⟩
          simp only [Prod.mk.injEq, Except.ok.injEq] at h
          obtain ⟨rfl, rfl, rfl⟩ := h
          exact ⟨_, rfl, by rw [List.map_cons, h2], by rw [List.flatMap_cons, h3]⟩

/-- A run with processes is the run without, or the main process has raised what some file raises. -/
theorem distMp_cases {R : Reporter} {dir : Str} {name : String} {F : List Fmt} (hR : Fresh R dir name F)
    {shallow : Bool} {n : Int} {a b : Str} {out : Logged (Change DiffOpts)}
    (h : DistMpRun P s R E l r o shallow n a b out) :
    out = distSeqRun P s R E l r o shallow a b ∨
    ∃ w e cs c, out = (w, .error e) ∧ distChildren E l r shallow = .ok cs ∧ c ∈ cs ∧ isDistReported c = false ∧
      c.check = .error e ∧ ∃ e', (distSeqRun P s R E l r o shallow a b).2 = .error e' := by
  obtain ⟨R', hs, hw, hrep⟩ := setup_fresh P E l r o s hR
  cases h with
  | setupFails e h => rw [hs] at h; cases h
  | collectFails R'' e h h' =>
    refine .inl ?_
    unfold distSeqRun
    rw [h']
  | fails R'' cs st e w h h' hst hm =>
    rw [hs] at h
    obtain rfl := Except.ok.inj h
    rw [hw] at hst
    obtain ⟨⟨e', h1⟩, x, hx, h2, h3⟩ := C62_failed _ n _ st hst e hm
    obtain ⟨c, hc, rfl⟩ := List.mem_map.1 hx
    refine .inr ⟨w, e, cs, c, rfl, h', hc, h2, ?_, ?_⟩
    · have h3 : c.check.map (fun c => (c, ([] : List (Target × Page)))) = .error e := h3
      cases hcc : c.check with
      | error e1 => rw [hcc] at h3; rw [← Except.error.inj h3]
      | ok x => rw [hcc] at h3; cases h3
    · unfold distSeqRun
      rw [h']
      simp only
      obtain ⟨i1, -⟩ := distLoop_seq P E l r o s R cs false
      cases hl : distLoop P s R E l r o cs false with
      | mk w2 z =>
        cases z with
        | error e2 => exact ⟨e2, rfl⟩
        | ok q =>
          obtain ⟨zs, h4, -⟩ := i1 w2 q.1 q.2 hl
          unfold seqCheck at h1
          rw [h1] at h4
          cases h4
  | ends R'' cs st c xs h h' hst hm hxs =>
    rw [hs] at h
    obtain rfl := Except.ok.inj h
    rw [hw] at hst
    obtain ⟨ys, h1, h2, -⟩ := C62_outcome _ n _ st hst c hm
    have : ys = xs := by
      rw [h2] at hxs
      exact (List.map_inj_right fun _ _ h => Option.some.inj h).1 hxs
    subst this
    refine .inl ?_
    rw [hrep]
    unfold distSeqRun
    rw [h']
    simp only
    obtain ⟨i1, i2⟩ := distLoop_seq P E l r o s R cs false
    unfold seqCheck at h1
    cases hl : distLoop P s R E l r o cs false with
    | mk w2 z =>
      cases z with
      | error e2 =>
        rw [i2 w2 e2 hl] at h1
        cases h1
      | ok q =>
        obtain ⟨zs, h4, h5, h6⟩ := i1 w2 q.1 q.2 hl
        rw [h1] at h4
        obtain ⟨rfl, rfl⟩ := Prod.mk.inj (Except.ok.inj h4)
        simp only
        rw [h5, h6]

/-- If the run without processes raises nothing, then with some processes it is the only run. -/
theorem distMp_runs {R : Reporter} {dir : Str} {name : String} {F : List Fmt} (hR : Fresh R dir name F)
    {shallow : Bool} {n : Int} (hn : 1 ≤ n) {a b : Str} {d : Change DiffOpts}
    (h : (distSeqRun P s R E l r o shallow a b).2 = .ok d) (out : Logged (Change DiffOpts)) :
    DistMpRun P s R E l r o shallow n a b out ↔ out = distSeqRun P s R E l r o shallow a b := by
  constructor
  · intro hm
    rcases distMp_cases P E l r o s hR hm with hm | ⟨w, e, cs, c, -, -, -, -, -, e', he⟩
    · exact hm
    · rw [h] at he
      cases he
  · rintro rfl
    obtain ⟨R', hs, hw, hrep⟩ := setup_fresh P E l r o s hR
    unfold distSeqRun at h ⊢
    cases hc : distChildren E l r shallow with
    | error e => simp [hc] at h
    | ok cs =>
      simp only [hc] at h ⊢
      obtain ⟨i1, -⟩ := distLoop_seq P E l r o s R cs false
      cases hl : distLoop P s R E l r o cs false with
      | mk w z =>
        cases z with
        | error e => simp [hl] at h
        | ok q =>
          obtain ⟨zs, h4, h5, h6⟩ := i1 w q.1 q.2 hl
          rw [← hw] at h4
          obtain ⟨-, st, h7, h8, h9⟩ := C62_ends_partial _ n hn _ zs q.2 h4 _ (.init)
          have := DistMpRun.ends (a := a) (b := b) R' cs st q.2 zs hs hc h7 h8 h9
          rw [hrep, h5, h6] at this
          exact this
end

/-! ## Which files -/

/-- The files that there are reports about: the JARs and classes that differ, each once. -/
structure DistReportedAre (l r : Forest) (shallow : Bool) (fs : List Str) : Prop where
  nodup : l.Ok → r.Ok → fs.Nodup
  mem : ∀ f, f ∈ fs ↔ (DistKindOf shallow f .jar ∨ DistKindOf shallow f .cls) ∧
    ∃ evs, compareDirs l r = (evs, none) ∧ (.diff, f) ∈ evs

theorem reported_diff (E : DistEnv) (l r : Forest) (shallow : Bool) (ev : Event) (f : Str) :
    isDistReported (distEntryChange E l r shallow (ev, f)) = true ↔
      ev = .diff ∧ (DistKindOf shallow f .jar ∨ DistKindOf shallow f .cls) := by
  obtain ⟨k, hk, hu⟩ := distKind_unique shallow f
  obtain ⟨hname, -, -, hch⟩ := C74_entry E l r shallow ev f k hk
  unfold isDistReported
  rw [Bool.and_eq_true, Bool.or_eq_true, decide_eq_true_iff, decide_eq_true_iff, hname, hch]
  have h1 : DistKindOf shallow f .jar ↔ k = .jar := ⟨fun h => (hu _ h).symm, fun h => h ▸ hk⟩
  have h2 : DistKindOf shallow f .cls ↔ k = .cls := ⟨fun h => (hu _ h).symm, fun h => h ▸ hk⟩
  rw [h1, h2]
  clear hname hch hk hu h1 h2
  cases ev <;> cases k <;> simp [distClass]

theorem dist_reported_are {E : DistEnv} {l r : Forest} {shallow : Bool} {cs : List (Change DiffOpts)}
    (h : distChildren E l r shallow = .ok cs) : DistReportedAre l r shallow (distReportedEntries cs) := by
  obtain ⟨evs, he, hperm⟩ := distChildren_entries E l r h
  have hfm : ∀ evs : List (Event × Str), distReportedEntries (evs.map (distEntryChange E l r shallow)) =
      (evs.filter fun p => isDistReported (distEntryChange E l r shallow p)).map Prod.snd := by
    intro evs
    induction evs with
    | nil => rfl
    | cons p evs ih =>
      rw [List.map_cons, distReportedEntries_cons, ih, List.filter_cons]
      split <;> rfl
  have hp : (distReportedEntries cs).Perm
      ((evs.filter fun p => isDistReported (distEntryChange E l r shallow p)).map Prod.snd) := by
    rw [← hfm]
    exact hperm.filterMap _
  refine ⟨fun hl hr => hp.nodup_iff.2 ?_, fun f => ?_⟩
  · rw [compareDirs_text hl hr] at he
    have hev : evs = (eventPaths l r).1.map (eventText []) := (congrArg Prod.fst he).symm
    have hinj : ∀ x ∈ (eventPaths l r).1, ∀ y ∈ (eventPaths l r).1,
        (eventText [] x).2 = (eventText [] y).2 → x.2 = y.2 := by
      intro x hx y hy hxy
      obtain ⟨n1, m1⟩ := reported_names hl hr (eventPaths_sound hl hr (ev := x.1) (p := x.2) hx)
      obtain ⟨n2, m2⟩ := reported_names hl hr (eventPaths_sound hl hr (ev := y.1) (p := y.2) hy)
      rw [← pathParts_denotes n1 m1 (eventText_denotes x).2, ← pathParts_denotes n2 m2 (eventText_denotes y).2, hxy]
    have hall : (evs.map Prod.snd).Nodup := by
      rw [hev, List.map_map]
      refine nodup_map_on (eventPaths_nodup hl hr) ?_
      intro x hx y hy hxy
      have h2 := hinj x hx y hy hxy
      have h1 := reported_unique hl hr (eventPaths_sound hl hr (ev := x.1) (p := x.2) hx)
        (h2 ▸ eventPaths_sound hl hr (ev := y.1) (p := y.2) hy)
      exact Prod.ext h1 h2
    exact hall.sublist (List.filter_sublist.map _)
  · rw [hp.mem_iff, List.mem_map]
    constructor
    · rintro ⟨⟨ev, g⟩, hm, rfl⟩
      obtain ⟨hm, hr⟩ := List.mem_filter.1 hm
      obtain ⟨rfl, hk⟩ := (reported_diff E l r shallow ev g).1 hr
      exact ⟨hk, evs, he, hm⟩
    · rintro ⟨hk, evs', he', hm⟩
      rw [he] at he'
      obtain rfl := (Prod.mk.inj he').1
      exact ⟨_, List.mem_filter.2 ⟨hm, (reported_diff E l r shallow .diff f).2 ⟨rfl, hk⟩⟩, rfl⟩

/-- C144, for two directories in which no name is a file here and a directory there: there are reports for the JARs
and classes that are in both and differ in size, or in modification time and content. -/
theorem C144_which {l r : Forest} {shallow : Bool} {fs : List Str} (h : DistReportedAre l r shallow fs)
    (hl : l.Ok) (hr : r.Ok) (hc : NoClash l r) (he : (compareDirs l r).2 = none) (f : Str) :
    f ∈ fs ↔ (DistKindOf shallow f .jar ∨ DistKindOf shallow f .cls) ∧
      ∃ p, f = commonName p ∧ Reporting Shallow l r .diff p := by
  rw [h.mem]
  refine and_congr_right fun _ => ?_
  constructor
  · rintro ⟨evs, h1, h2⟩
    obtain ⟨p, h3, -, h4⟩ := event_of_mem hl hr (e := (.diff, f)) (by rw [h1]; exact h2)
    rw [commonName_eq (.inl rfl)] at h3
    exact ⟨p, (Prod.mk.inj h3).2, h4⟩
  · rintro ⟨p, rfl, hp⟩
    refine ⟨_, Prod.ext rfl he, ?_⟩
    have := event_mem hl hr hc he hp
    rwa [commonName_eq (.inl rfl)] at this

/-! ## The command line -/

/-- The number of processes: the last `--processes`, else the number of processors. -/
def ProcessesAre (int : Str → Int) (cpus : Int) (given : List (OptSpec × List Str)) (n : Int) : Prop :=
  (∀ v, (valuesOf given (spec .int ["--processes"])).getLast? = some v → n = int v) ∧
  (valuesOf given (spec .int ["--processes"]) = [] → n = cpus)

theorem processCount_given (int : Str → Int) (cpus : Int) {given : List (OptSpec × List Str)}
    (hg : ∀ g ∈ given, Fits g) : ProcessesAre int cpus given (processCount int cpus (givenEvents given)) := by
  have key : ∀ acc : Int, (givenEvents given).foldl (fun n ev => match ev with
      | .opt o args => if o = spec .int ["--processes"] then ((args.head?).map int).getD n else n
      | .files _ => n) acc = ((valuesOf given (spec .int ["--processes"])).getLast?.map int).getD acc := by
    induction given with
    | nil => exact fun _ => rfl
    | cons g given ih =>
      intro acc
      simp only [givenEvents, List.map_cons, List.foldl_cons]
      have ih := ih fun x hx => hg x (List.mem_cons_of_mem _ hx)
      simp only [givenEvents] at ih
      rw [ih]
      unfold valuesOf
      rw [List.filter_cons]
      by_cases h : g.1 = spec .int ["--processes"]
      · rw [if_pos h, if_pos (by simpa using h), List.flatMap_cons]
        rcases (hg g List.mem_cons_self).arity with ⟨-, v, hv⟩ | ⟨ht, -⟩
        · rw [hv, List.getLast?_append]
          cases (List.flatMap Prod.snd (given.filter fun g => decide (g.1 = spec .int ["--processes"]))).getLast? <;> rfl
        · rw [h] at ht
          exact absurd ht (by decide)
      · rw [if_neg h, if_neg (by simpa using h)]
  have hk : processCount int cpus (givenEvents given) = _ := key cpus
  rw [hk]
  exact ⟨fun v hv => by rw [hv]; rfl, fun h => by rw [h]; rfl⟩

theorem orHere_ne (x : Option Str) : orHere x ≠ [] := by
  match x with
  | none => simp [orHere]
  | some [] => simp [orHere]
  | some (_ :: _) => simp [orHere]

section
variable (negNum : Str → Bool) {isInt : Str → Bool} (int : Str → Int) (cpus : Int) (W : DiffWorld) (P : ReportEnv)

/-- The runs for a command line that asks for reports. -/
theorem distMain_report {ps : List ArgPiece} {a b : Str} (h : TwoFiles isInt .distdiff ps a b)
    (hc : Clean (piecesGiven ps)) (ha : Asked (piecesGiven ps)) :
    ∃ ns dir names F, DiffMeans (piecesGiven ps) ns.args ∧ DirIs (piecesGiven ps) dir ∧
      FormatsAre (piecesGiven ps) F ∧
      Fresh (Reporter.addFormatsByName { basedir := dir, entry := "DistReport".toList } names) dir "DistReport" F ∧
      ∀ int cpus, ∃ n, ProcessesAre int cpus (piecesGiven ps) n ∧ ∀ run,
        DistMain negNum isInt int cpus W P (piecesWords ps) run ↔ DistReportCli W P ns dir names n a b run := by
  obtain ⟨evs, h1, h2, h3, h5, h4⟩ := report_namespace negNum h
  rcases h4 with ⟨h4, -⟩ | ⟨-, ns, h4, hn⟩
  · exact absurd h4 hc.noConflict
  have hne := (asked_iff _).2 ha
  obtain ⟨hd1, hd2⟩ := @orHere_is (piecesGiven ps)
  obtain ⟨F, hF, hFn, hFe⟩ := fresh_new hd2 "DistReport"
    ((valuesOf (piecesGiven ps) (spec .value ["--report"])).foldl optReport [])
  have hFs := C110_formats (orHere (valuesOf (piecesGiven ps) (spec .value ["--report-dir"])).getLast?)
    "DistReport".toList (valuesOf (piecesGiven ps) (spec .value ["--report"]))
  simp only [← hFe] at hFs
  refine ⟨ns, _, _, F, hn.means ?_, hd1, ⟨hFn, hFs.2⟩, hF, ?_⟩
  · rintro x hx ⟨g, hg, he⟩
    exact absurd he (hc g hg x hx)
  intro int cpus
  refine ⟨processCount int cpus evs, ?_, fun run => ?_⟩
  · have hr : OneRun DiffTool.distdiff.tool.nargs ps := h.run
    obtain ⟨evs', h1', h2', -⟩ := C134_partial (negNum := negNum) DiffTool.distdiff.tool h.good hr
    rw [h1] at h1'
    obtain rfl := Except.ok.inj h1'
    have := processCount_given int cpus (good_fits h.good)
    rw [← h2'] at this
    have hf : processCount int cpus (evs.filter fun ev => decide (ev ≠ .files (piecesFiles ps))) =
        processCount int cpus evs := foldl_files _ _ (fun _ => rfl) _ _
    rwa [hf] at this
  · rw [← h3, ← h5]
    constructor
    · intro hm
      cases hm with
      | refused e q => exact absurd (h1.symm.trans q) (by simp)
      | action evs' e q q' =>
        obtain rfl := Except.ok.inj (h1.symm.trans q)
        rw [h4] at q'
        cases q'
      | plain evs' ns' a' b' more q q' q'' q3 =>
        obtain rfl := Except.ok.inj (h1.symm.trans q)
        rw [h3] at q3
        exact absurd q3 hne
      | report evs' ns' a' b' more run q q' q'' q3 q4 =>
        obtain rfl := Except.ok.inj (h1.symm.trans q)
        obtain rfl := Except.ok.inj (h4.symm.trans q')
        rw [h2] at q''
        simp only [List.cons.injEq] at q''
        rw [q''.1, q''.2.1]
        exact q4
    · intro hm
      exact .report evs ns a b [] run h1 h4 h2 (by rw [h3]; exact hne) hm

/-- The logged result of a run with reports. -/
theorem distCli_cases {ns : DiffNs} {dir : Str} {names : List Str} {F : List Fmt} {n : Int} {a b : Str}
    (hF : Fresh (Reporter.addFormatsByName { basedir := dir, entry := "DistReport".toList } names) dir "DistReport" F)
    {run : ReportRun} (h : DistReportCli W P ns dir names n a b run) :
    run = finishReport W ns ns.opts (distSeqRun P ns.show
      (Reporter.addFormatsByName { basedir := dir, entry := "DistReport".toList } names) W.E (W.dir a) (W.dir b)
      ns.opts ns.shallow a b) ∨
    (n ≠ 0 ∧ ∃ w e cs c e', run = ⟨w, .fails e⟩ ∧ distChildren W.E (W.dir a) (W.dir b) ns.shallow = .ok cs ∧ c ∈ cs ∧
      c.check = .error e ∧ (distSeqRun P ns.show
      (Reporter.addFormatsByName { basedir := dir, entry := "DistReport".toList } names) W.E (W.dir a) (W.dir b)
      ns.opts ns.shallow a b).2 = .error e') := by
  cases h with
  | seq hn => exact .inl rfl
  | par out hn h =>
    rcases distMp_cases P W.E (W.dir a) (W.dir b) ns.opts ns.show hF h with rfl |
      ⟨w, e, cs, c, rfl, h1, h2, -, h3, e', h4⟩
    · exact .inl rfl
    · exact .inr ⟨hn, w, e, cs, c, e', rfl, h1, h2, h3, h4⟩

/-- C144: a run of distdiff with `--report`, as long as `--ignore` names no option for patterns, ends with the
exception that comparing or writing raises. Else it has written the reports of jardiff for each JAR that differs and
those of classdiff for each class that differs, in a directory named after the file, and then the report of the
distributions; what it prints and returns is the comparison of the distributions in brief. That is so for any number
of processes; only if there are any, the exception may be that of another file. -/
theorem C144_run (hup : IsUpper W.E.up) (ho : IsSetOrder W.E.order) {ps : List ArgPiece} {a b : Str}
    (h : TwoFiles isInt .distdiff ps a b) (hc : Clean (piecesGiven ps)) (ha : Asked (piecesGiven ps)) :
    ∃ A dir F, DiffMeans (piecesGiven ps) A ∧ DirIs (piecesGiven ps) dir ∧ FormatsAre (piecesGiven ps) F ∧
    ∀ run, DistMain negNum isInt int cpus W P (piecesWords ps) run →
      (∃ e, run.run = ⟨none, .error e⟩ ∧
        ((nameDist a b (distChange W.E (W.dir a) (W.dir b) A.shallow)).check = .error e ∨ Fault P e ∨
         (¬ ProcessesAre int cpus (piecesGiven ps) 0 ∧ ∃ evs p, compareDirs (W.dir a) (W.dir b) = (evs, none) ∧
          p ∈ evs ∧ (distEntryChange W.E (W.dir a) (W.dir b) A.shallow p).check = .error e))) ∨
      (∃ c d fs w w', (nameDist a b (distChange W.E (W.dir a) (W.dir b) A.shallow)).check = .ok c ∧
        DistBrief A.opts A.shows c d ∧ DistReportedAre (W.dir a) (W.dir b) A.shallow fs ∧ run.files = w ++ w' ∧
        DistReports P A.opts A.shows W.E (W.dir a) (W.dir b) A.shallow dir F fs w ∧
        ReportOf P A.opts A.shows dir "DistReport" F d w' ∧ RunIs W A A.opts d run.run) := by
  obtain ⟨ns, dir, names, F, hA, hd, hFs, hF, hm⟩ := distMain_report negNum W P h hc ha
  obtain ⟨n, hn, hm⟩ := hm int cpus
  refine ⟨ns.args, dir, F, hA, hd, hFs, fun run hrun => ?_⟩
  rw [hm] at hrun
  have hshallow : ns.args.shallow = ns.shallow := rfl
  rcases distCli_cases W P hF hrun with rfl | ⟨hn0, w, e, cs, c, -, rfl, h1, h2, h3, -⟩
  · rcases distSeq_or P W.E (W.dir a) (W.dir b) ns.opts ns.show hup ho hF hFs.nodup ns.shallow a b with
      ⟨c, d, cs, w, w', q1, q2, q3, q4, q5, q6⟩ | ⟨e, q1, q2⟩
    · rw [q4]
      exact .inr ⟨c, d, _, w, w', q1, q2, dist_reported_are q3, rfl, q5, q6, finish_is W ns ns.opts d⟩
    · refine .inl ⟨e, ?_, q2.imp_right .inl⟩
      generalize distSeqRun P ns.show _ W.E (W.dir a) (W.dir b) ns.opts ns.shallow a b = out at q1
      obtain ⟨w, y⟩ := out
      simp only at q1
      subst q1
      rfl
  · refine .inl ⟨e, rfl, .inr (.inr ⟨?_, ?_⟩)⟩
    · intro h0
      refine hn0 ?_
      cases hv : (valuesOf (piecesGiven ps) (spec .int ["--processes"])).getLast? with
      | none =>
        rw [List.getLast?_eq_none_iff] at hv
        rw [hn.2 hv, h0.2 hv]
      | some v => rw [hn.1 v hv, h0.1 v hv]
    · obtain ⟨evs, h4, h5⟩ := distChildren_entries W.E (W.dir a) (W.dir b) h1
      obtain ⟨p, hp, rfl⟩ := List.mem_map.1 (h5.mem_iff.1 h2)
      exact ⟨evs, p, h4, hp, h3⟩

theorem checkAll_raises (cs : List (Change DiffOpts)) (b : Bool) (c : Change DiffOpts) (hc : c ∈ cs) (e : PyErr)
    (h : c.check = .error e) : ∃ e', Change.checkAll cs b = .error e' := by
  induction cs generalizing b with
  | nil => cases hc
  | cons x xs ih =>
    rw [Change.checkAll]
    cases hx : x.check with
    | error e1 => exact ⟨e1, rfl⟩
    | ok x' =>
      rcases List.mem_cons.1 hc with rfl | hc
      · rw [hx] at h; cases h
      · obtain ⟨e', he'⟩ := ih (b || x'.isChange) hc
        exact ⟨e', by simp only [he']⟩

/-- C144: the exit status with reports is the one without, for any number of processes. -/
theorem C144_status (other : List ArgEvent → DiffRun) (hup : IsUpper W.E.up) (ho : IsSetOrder W.E.order)
    {ps ps' : List ArgPiece} {a b : Str} (h : TwoFiles isInt .distdiff ps a b) (hc : Clean (piecesGiven ps))
    (h' : Compares isInt .distdiff ps' a b) (hc' : Clean (piecesGiven ps')) {A : DiffArgs}
    (hA : DiffMeans (piecesGiven ps) A) (hA' : DiffMeans (piecesGiven ps') A) (ha : Asked (piecesGiven ps))
    (hf : ∀ e, ¬ Fault P e) (hd : ∀ name, A.dest = some name → W.cannotOpen name = none) {run : ReportRun}
    (hrun : DistMain negNum isInt int cpus W P (piecesWords ps) run) :
    (∀ k, run.run.status = .ok k ↔ (diffMain negNum isInt W other .distdiff (piecesWords ps')).status = .ok k) ∧
    (ProcessesAre int cpus (piecesGiven ps) 0 →
      run.run.status = (diffMain negNum isInt W other .distdiff (piecesWords ps')).status) := by
  obtain ⟨B, dir, F, hB, -, -, h1⟩ := C144_run negNum int cpus W P hup ho h hc ha
  obtain ⟨h4, h5⟩ := C141_partial negNum W other (t := .distdiff) (by simp) h' hc' hA'
  have hde : deltaOf W .distdiff A.shallow a b = .ok (nameDist a b (distChange W.E (W.dir a) (W.dir b) A.shallow)) := rfl
  have hsh : B.shallow = A.shallow := Bool.eq_iff_iff.2 (hB.shallow.trans hA.shallow.symm)
  rw [hde] at h4 h5
  simp only [Except.bind] at h4 h5
  rcases h1 run hrun with ⟨e, q1, q2⟩ | ⟨c, d, fs, w, w', q1, q2, -, -, -, -, q3⟩
  · rw [q1]
    rw [hsh] at q2
    rcases q2 with q2 | q2 | ⟨hn, evs, p, he, hp, q2⟩
    · rw [h4 e q2]
      exact ⟨fun k => Iff.rfl, fun _ => rfl⟩
    · exact absurd q2 (hf e)
    · have : ∃ e', (nameDist a b (distChange W.E (W.dir a) (W.dir b) A.shallow)).check = .error e' := by
        unfold distChange distChildren
        rw [he]
        simp only [orRaise, nameDist, Change.check]
        have hm := (C37_permutation (fun c : Change DiffOpts => c.hdr.typeName)
          (evs.map (distEntryChange W.E (W.dir a) (W.dir b) A.shallow)) distTypes).mem_iff.2
            (List.mem_map.2 ⟨p, hp, rfl⟩)
        obtain ⟨e', he'⟩ := checkAll_raises _ false _ hm e q2
        exact ⟨e', by rw [he']⟩
      obtain ⟨e', he'⟩ := this
      rw [h4 e' he']
      exact ⟨fun k => by simp, fun h0 => absurd h0 hn⟩
  · have hdd : A.dest = B.dest := Option.ext fun name => by rw [hA.dest, hB.dest]
    rw [hsh] at q1
    have hq := h5 c q1
    have : run.run.status = (diffMain negNum isInt W other .distdiff (piecesWords ps')).status := by
      rw [q3.status (by rw [← hdd]; exact hd), hq.status hd]
      have hso : SameOpts A.opts B.opts := by
        refine ⟨fun name => Bool.eq_iff_iff.2 ((hA.flags name).trans (hB.flags name).symm), ?_, ?_, ?_⟩
        · rw [hA.keys, hB.keys]
        · rw [hA.entries, hB.entries]
        · rw [hA.files, hB.files]
      have hresp : Change.Resp SameOpts c := delta_resp W .distdiff A.shallow a b (by
        rw [hde]
        exact q1)
      rw [Change.exitStatus_resp hso hresp]
      unfold Change.exitStatus
      rw [q2.1, q2.2.1]
    rw [this]
    exact ⟨fun k => Iff.rfl, fun _ => rfl⟩

/-! ## C145: the number of processes -/

theorem processCount_zero (evs : List ArgEvent) : processCount (fun _ => 0) 0 evs = 0 := by
  unfold processCount
  induction evs with
  | nil => rfl
  | cons ev evs ih =>
    rw [List.foldl_cons]
    cases ev with
    | files fs => exact ih
    | opt o args =>
      simp only
      split
      · cases args with
        | nil => exact ih
        | cons v vs => exact ih
      · exact ih

/-- C145: a run that raises nothing is the run without processes. -/
theorem C145_same (argv : List Str) {run : ReportRun} (h : DistMain negNum isInt int cpus W P argv run) {k : Nat}
    (hk : run.run.status = .ok k) : DistMain negNum isInt (fun _ => 0) 0 W P argv run := by
  cases h with
  | refused e h => exact .refused e h
  | action evs e h h' => exact .action evs e h h'
  | plain evs ns a b more h1 h2 h3 h4 => exact .plain evs ns a b more h1 h2 h3 h4
  | report evs ns a b more run h1 h2 h3 h4 h5 =>
    refine .report evs ns a b more run h1 h2 h3 h4 ?_
    rw [processCount_zero]
    obtain ⟨F, hF, -⟩ := fresh_new (orHere_ne (reportDir evs)) "DistReport" (reportNames evs)
    rcases distCli_cases W P hF h5 with rfl | ⟨-, w, e, -, -, -, rfl, -⟩
    · exact .seq rfl
    · cases hk

/-- C145: if a run raises something, so does the run without processes. -/
theorem C145_raises (argv : List Str) {run : ReportRun} (h : DistMain negNum isInt int cpus W P argv run) {e : PyErr}
    (he : run.run.status = .error e) :
    ∃ run' e', DistMain negNum isInt (fun _ => 0) 0 W P argv run' ∧ run'.run.status = .error e' := by
  cases h with
  | refused e h => exact ⟨_, e, .refused e h, rfl⟩
  | action evs e h h' => exact ⟨_, e, .action evs e h h', rfl⟩
  | plain evs ns a b more h1 h2 h3 h4 => exact ⟨_, e, .plain evs ns a b more h1 h2 h3 h4, he⟩
  | report evs ns a b more run h1 h2 h3 h4 h5 =>
    obtain ⟨F, hF, -⟩ := fresh_new (orHere_ne (reportDir evs)) "DistReport" (reportNames evs)
    have hr : ∀ run', DistReportCli W P ns (orHere (reportDir evs)) (reportNames evs) 0 a b run' →
        DistMain negNum isInt (fun _ => 0) 0 W P argv run' := fun run' hr => by
      refine .report evs ns a b more run' h1 h2 h3 h4 ?_
      rw [processCount_zero]
      exact hr
    rcases distCli_cases W P hF h5 with rfl | ⟨-, w, e, -, -, e', rfl, -, -, -, h6⟩
    · exact ⟨_, e, hr _ (.seq rfl), he⟩
    · refine ⟨_, e', hr _ (.seq rfl), ?_⟩
      generalize distSeqRun P ns.show _ W.E (W.dir a) (W.dir b) ns.opts ns.shallow a b = out at h6
      obtain ⟨w, y⟩ := out
      simp only at h6
      subst h6
      rfl

/-- C145: if no number is negative and the run without processes raises nothing, then that is the only run for any
number of processes. -/
theorem C145_partial (argv : List Str) (hint : ∀ v, 0 ≤ int v) (hcpus : 0 ≤ cpus) {run₀ : ReportRun}
    (h : DistMain negNum isInt (fun _ => 0) 0 W P argv run₀) {k : Nat} (hk : run₀.run.status = .ok k)
    (run : ReportRun) : DistMain negNum isInt int cpus W P argv run ↔ run = run₀ := by
  have hpc : ∀ evs, 0 ≤ processCount int cpus evs := by
    intro evs
    unfold processCount
    induction evs generalizing cpus with
    | nil => exact hcpus
    | cons ev evs ih =>
      rw [List.foldl_cons]
      refine ih _ ?_
      cases ev with
      | files fs => exact hcpus
      | opt o args =>
        simp only
        split
        · cases args with
          | nil => exact hcpus
          | cons v vs => exact hint v
        · exact hcpus
  cases h with
  | refused e h => cases hk
  | action evs e h h' => cases hk
  | plain evs ns a b more h1 h2 h3 h4 =>
    constructor
    · intro hm
      cases hm with
      | refused e q => exact absurd (h1.symm.trans q) (by simp)
      | action evs' e q q' =>
        obtain rfl := Except.ok.inj (h1.symm.trans q)
        rw [h2] at q'
        cases q'
      | plain evs' ns' a' b' more' q q' q'' q3 =>
        obtain rfl := Except.ok.inj (h1.symm.trans q)
        obtain rfl := Except.ok.inj (h2.symm.trans q')
        rw [h3] at q''
        simp only [List.cons.injEq] at q''
        rw [q''.1, q''.2.1]
      | report evs' ns' a' b' more' run q q' q'' q3 q4 =>
        obtain rfl := Except.ok.inj (h1.symm.trans q)
        exact absurd h4 q3
    · rintro rfl
      exact .plain evs ns a b more h1 h2 h3 h4
  | report evs ns a b more run₀ h1 h2 h3 h4 h5 =>
    obtain ⟨F, hF, -⟩ := fresh_new (orHere_ne (reportDir evs)) "DistReport" (reportNames evs)
    rw [processCount_zero] at h5
    have hseq : run₀ = finishReport W ns ns.opts (distSeqRun P ns.show (Reporter.addFormatsByName
        { basedir := orHere (reportDir evs), entry := "DistReport".toList } (reportNames evs)) W.E (W.dir a) (W.dir b)
        ns.opts ns.shallow a b) := by
      rcases distCli_cases W P hF h5 with h6 | ⟨h6, -⟩
      · exact h6
      · exact absurd rfl h6
    have hok : ∃ d, (distSeqRun P ns.show (Reporter.addFormatsByName
        { basedir := orHere (reportDir evs), entry := "DistReport".toList } (reportNames evs)) W.E (W.dir a) (W.dir b)
        ns.opts ns.shallow a b).2 = .ok d := by
      rw [hseq] at hk
      generalize distSeqRun P ns.show _ W.E (W.dir a) (W.dir b) ns.opts ns.shallow a b = out at hk
      obtain ⟨w, y | y⟩ := out
      · cases hk
      · exact ⟨y, rfl⟩
    obtain ⟨d, hd⟩ := hok
    constructor
    · intro hm
      cases hm with
      | refused e q => exact absurd (h1.symm.trans q) (by simp)
      | action evs' e q q' =>
        obtain rfl := Except.ok.inj (h1.symm.trans q)
        rw [h2] at q'
        cases q'
      | plain evs' ns' a' b' more' q q' q'' q3 =>
        obtain rfl := Except.ok.inj (h1.symm.trans q)
        exact absurd q3 h4
      | report evs' ns' a' b' more' run q q' q'' q3 q4 =>
        obtain rfl := Except.ok.inj (h1.symm.trans q)
        obtain rfl := Except.ok.inj (h2.symm.trans q')
        rw [h3] at q''
        simp only [List.cons.injEq] at q''
        rw [← q''.1, ← q''.2.1] at q4
        rcases distCli_cases W P hF q4 with h6 | ⟨-, w, e, cs, c, e', -, -, -, -, h7⟩
        · rw [h6, hseq]
        · rw [hd] at h7
          cases h7
    · rintro rfl
      refine .report evs ns a b more run h1 h2 h3 h4 ?_
      rw [hseq]
      by_cases hn : processCount int cpus evs = 0
      · exact .seq hn
      · refine .par _ hn ((distMp_runs P W.E (W.dir a) (W.dir b) ns.opts ns.show hF ?_ hd _).2 rfl)
        have := hpc evs
        omega


/-- C145, a finding: with processes, a run whose comparison of a JAR or class raises never ends if no other file
raises. -/
theorem C145_hangs (hup : IsUpper W.E.up) (ho : IsSetOrder W.E.order) {ps : List ArgPiece} {a b : Str}
    (h : TwoFiles isInt .distdiff ps a b) (hc : Clean (piecesGiven ps)) (ha : Asked (piecesGiven ps))
    (hn : ¬ ProcessesAre int cpus (piecesGiven ps) 0) (hsh : ¬ Has (piecesGiven ps) (spec .flag ["--shallow"]))
    {evs : List (Event × Str)} (he : compareDirs (W.dir a) (W.dir b) = (evs, none))
    (hoth : ∀ p ∈ evs, (p.1 = .diff ∧ (DistKindOf false p.2 .jar ∨ DistKindOf false p.2 .cls)) ∨
      ∃ x, (distEntryChange W.E (W.dir a) (W.dir b) false p).check = .ok x)
    {f : Str} (hf : (.diff, f) ∈ evs) (hk : DistKindOf false f .jar ∨ DistKindOf false f .cls) {e : PyErr}
    (hraise : (distEntryChange W.E (W.dir a) (W.dir b) false (.diff, f)).check = .error e) (run : ReportRun) :
    ¬ DistMain negNum isInt int cpus W P (piecesWords ps) run := by
  obtain ⟨ns, dir, names, F, hA, hd, hFs, hF, hm⟩ := distMain_report negNum W P h hc ha
  obtain ⟨n, hn', hm⟩ := hm int cpus
  rw [hm]
  have hn0 : n ≠ 0 := fun h0 => hn (h0 ▸ hn')
  have hs : ns.shallow = false := by
    have : ns.args.shallow = ns.shallow := rfl
    rw [← this]
    cases hx : ns.args.shallow with
    | false => rfl
    | true => exact absurd (hA.shallow.1 hx) hsh
  have hch : ∃ cs, distChildren W.E (W.dir a) (W.dir b) ns.shallow = .ok cs := by
    unfold distChildren
    rw [he]
    exact ⟨_, rfl⟩
  obtain ⟨cs, hcs⟩ := hch
  obtain ⟨evs', h1, h2⟩ := distChildren_entries W.E (W.dir a) (W.dir b) hcs
  obtain rfl := (Prod.mk.inj (he.symm.trans h1)).1
  intro hrun
  cases hrun with
  | seq h0 => exact hn0 h0
  | par out h0 hmp =>
    obtain ⟨R', hset, hw, hrep⟩ := setup_fresh P W.E (W.dir a) (W.dir b) ns.opts ns.show hF
    have hang : ∀ st, MpReach (distWrites P ns.show R' W.E (W.dir a) (W.dir b) ns.opts) n
        (cs.map fun c => (c, [])) st → (∀ c, st.main ≠ .done c) ∧ ∀ e, st.main ≠ .failed e := by
      intro st hst
      rw [hw] at hst
      have hmem : distEntryChange W.E (W.dir a) (W.dir b) false (.diff, f) ∈ cs :=
        h2.mem_iff.2 (by rw [hs]; exact List.mem_map.2 ⟨_, hf, rfl⟩)
      have hrepf : isDistReported (distEntryChange W.E (W.dir a) (W.dir b) false (.diff, f)) = true :=
        (reported_diff ..).2 ⟨rfl, hk⟩
      have herr : ∃ w e', distOne P ns.show
          (Reporter.addFormatsByName { basedir := dir, entry := "DistReport".toList } names) W.E (W.dir a) (W.dir b) ns.opts
          (distEntryChange W.E (W.dir a) (W.dir b) false (.diff, f)) = (w, .error e') := by
        rcases distOne_or P W.E (W.dir a) (W.dir b) ns.opts ns.show hup ho hF hFs.nodup (shallow := false) (.diff, f) with
          ⟨w, x, d, -, q2, -⟩ | ⟨w, e', q1, -⟩
        · have := q2.checked
          rw [hraise] at this
          cases this
        · exact ⟨w, e', q1⟩
      obtain ⟨w, e', herr⟩ := herr
      refine C62_hangs _ n _ ?_ (distEntryChange W.E (W.dir a) (W.dir b) false (.diff, f), [])
        (List.mem_map.2 ⟨_, hmem, rfl⟩) hrepf e' ?_ st hst
      · intro x hx hr
        obtain ⟨c, hc, rfl⟩ := List.mem_map.1 hx
        obtain ⟨p, hp, rfl⟩ := List.mem_map.1 (h2.mem_iff.1 hc)
        rw [hs] at hr ⊢
        rcases hoth p hp with hp | ⟨x, hx⟩
        · have hr : isDistReported (distEntryChange W.E (W.dir a) (W.dir b) false (p.1, p.2)) = false := hr
          rw [(reported_diff ..).2 hp] at hr
          cases hr
        · exact ⟨(x, []), by
            show (distEntryChange W.E (W.dir a) (W.dir b) false p).check.map _ = _
            rw [hx]
            rfl⟩
      · unfold distOne at herr
        rw [if_pos hrepf] at herr
        show (match distSubReport P ns.show _ W.E (W.dir a) (W.dir b) ns.opts
          (distEntryChange W.E (W.dir a) (W.dir b) false (.diff, f)) with
          | (_, .error e) => Except.error e
          | (w, .ok d) => .ok (d.squash false (some ns.opts), w)) = _
        generalize distSubReport P ns.show _ W.E (W.dir a) (W.dir b) ns.opts _ = out at herr
        obtain ⟨w1, y | y⟩ := out
        · simp only [Prod.mk.injEq, Except.error.injEq] at herr
          rw [herr.2]
        · simp at herr
    cases hmp with
    | setupFails e h => rw [hset] at h; cases h
    | collectFails R'' e h h' => rw [hcs] at h'; cases h'
    | fails R'' cs' st e w h h' hst hm =>
      rw [hset] at h
      obtain rfl := Except.ok.inj h
      obtain rfl := Except.ok.inj (hcs.symm.trans h')
      exact (hang st hst).2 e hm
    | ends R'' cs' st c xs h h' hst hm hxs =>
      rw [hset] at h
      obtain rfl := Except.ok.inj h
      obtain rfl := Except.ok.inj (hcs.symm.trans h')
      exact (hang st hst).1 c hm

/-- C145, a finding: with a negative number of processes and a report to be written, no run ends without an
exception. -/
theorem C145_negative {ps : List ArgPiece} {a b : Str}
    (h : TwoFiles isInt .distdiff ps a b) (hc : Clean (piecesGiven ps)) (ha : Asked (piecesGiven ps))
    (hn : ∃ n, n < 0 ∧ ProcessesAre int cpus (piecesGiven ps) n) (hsh : ¬ Has (piecesGiven ps) (spec .flag ["--shallow"]))
    {evs : List (Event × Str)} (he : compareDirs (W.dir a) (W.dir b) = (evs, none))
    {f : Str} (hf : (.diff, f) ∈ evs) (hk : DistKindOf false f .jar ∨ DistKindOf false f .cls) {run : ReportRun}
    (hrun : DistMain negNum isInt int cpus W P (piecesWords ps) run) : ∃ e, run.run = ⟨none, .error e⟩ := by
  obtain ⟨ns, dir, names, F, hA, hd, hFs, hF, hm⟩ := distMain_report negNum W P h hc ha
  obtain ⟨n, hn', hm⟩ := hm int cpus
  rw [hm] at hrun
  have hneg : n < 0 := by
    obtain ⟨m, hm0, hm⟩ := hn
    have : n = m := by
      cases hv : (valuesOf (piecesGiven ps) (spec .int ["--processes"])).getLast? with
      | none =>
        rw [List.getLast?_eq_none_iff] at hv
        rw [hn'.2 hv, hm.2 hv]
      | some v => rw [hn'.1 v hv, hm.1 v hv]
    omega
  have hs : ns.shallow = false := by
    have : ns.args.shallow = ns.shallow := rfl
    rw [← this]
    cases hx : ns.args.shallow with
    | false => rfl
    | true => exact absurd (hA.shallow.1 hx) hsh
  cases hrun with
  | seq h0 => omega
  | par out h0 hmp =>
    cases hmp with
    | setupFails e h => exact ⟨e, rfl⟩
    | collectFails R'' e h h' => exact ⟨e, rfl⟩
    | fails R'' cs' st e w h h' hst hm => exact ⟨e, rfl⟩
    | ends R' cs st c xs h h' hst hm hxs =>
      obtain ⟨evs', h1, h2⟩ := distChildren_entries W.E (W.dir a) (W.dir b) h'
      obtain rfl := (Prod.mk.inj (he.symm.trans h1)).1
      refine absurd hm ((C62_negative _ n (by omega) _
        (distEntryChange W.E (W.dir a) (W.dir b) false (.diff, f), [])
        (List.mem_map.2 ⟨distEntryChange W.E (W.dir a) (W.dir b) false (.diff, f), ?_, rfl⟩) ?_ st hst).2 c)
      · exact h2.mem_iff.2 (by rw [hs]; exact List.mem_map.2 ⟨_, hf, rfl⟩)
      · exact (reported_diff ..).2 ⟨rfl, hk⟩

end

/-- C145 in full: the runs are the same whatever the number of processes is. -/
def C145_full : Prop :=
  ∀ (negNum isInt : Str → Bool) (int int' : Str → Int) (cpus cpus' : Int) (W : DiffWorld) (P : ReportEnv)
    (argv : List Str) (run : ReportRun), IsUpper W.E.up → IsSetOrder W.E.order →
    DistMain negNum isInt int cpus W P argv run → DistMain negNum isInt int' cpus' W P argv run

def reportJson : List ArgPiece :=
  [.options [(spec .value ["--report"], ["json".toList])] ["--report".toList, "json".toList],
   .file "a".toList, .file "b".toList]

theorem reportJson_given : piecesGiven reportJson = [(spec .value ["--report"], ["json".toList])] := rfl

theorem reportJson_files : TwoFiles (fun _ => false) .distdiff reportJson "a".toList "b".toList := by
  constructor
  · intro p hp
    simp only [reportJson, List.mem_cons, List.not_mem_nil, or_false] at hp
    rcases hp with rfl | rfl | rfl
    · refine ⟨.value ?_ rfl ?_, ?_⟩
      · exact ⟨by decide +kernel, by decide⟩
      · exact .inl (by decide)
      · intro a ha
        simp only [List.mem_cons, List.not_mem_nil, or_false] at ha
        subst ha
        exact ⟨by decide, by intro h; simp [spec] at h⟩
    · exact .inl (by decide)
    · exact .inl (by decide)
  · exact ⟨[_], ["a".toList, "b".toList], [], rfl, rfl, rfl, rfl⟩
  · rfl

theorem reportJson_clean : Clean (piecesGiven reportJson) := by
  intro g hg x _
  rw [reportJson_given, List.mem_singleton] at hg
  subst hg
  rintro ⟨v, h, -⟩
  exact absurd (congrArg Prod.fst h) (by show ¬ spec .value ["--report"] = spec .value ["--ignore"]; decide)

theorem reportJson_asked : Asked (piecesGiven reportJson) :=
  ⟨"json".toList, by decide, .inr ⟨"json".toList, by decide, by decide, [], [], by decide, .inl rfl, .inl rfl⟩⟩

/-- The worlds in which the directories have one class, which cannot be read, or can. -/
def brokenWorld : DiffWorld :=
  { demoWorld with dir := fun n => .file "X.class".toList (if n = "a".toList then [] else [1]) 0 .nil }

def oneClass (access : Nat) : Forest := .file "X.class".toList (tinyClass access).enc access .nil

def classWorld : DiffWorld :=
  { demoWorld with dir := fun n => oneClass (if n = "a".toList then 1 else 0) }

/-- One class, which cannot be read, and one process. -/
theorem C145_full_fails : ¬ C145_full := by
  intro h
  obtain ⟨ns, dir, names, F, -, -, -, -, hm⟩ :=
    distMain_report (fun _ => false) brokenWorld demoReports reportJson_files reportJson_clean reportJson_asked
  obtain ⟨n, hn, hm⟩ := hm (fun _ => 0) 0
  have hn0 : n = 0 := hn.2 (by decide)
  have h1 := (hm _).2 (.seq hn0)
  have h2 := h _ _ (fun _ => 0) (fun _ => 0) 0 1 _ _ _ _ upLongS_isUpper dedup_isSetOrder h1
  refine C145_hangs (fun _ => false) (fun _ => 0) 1 brokenWorld demoReports upLongS_isUpper dedup_isSetOrder
    reportJson_files reportJson_clean reportJson_asked (fun hp => ?_) ?_
    (evs := [(.diff, "./X.class".toList)]) (by decide +kernel) ?_ (f := "./X.class".toList) (by simp)
    (.inr ⟨rfl, ".class", by decide, "./X".toList, by decide⟩) (e := .unpack (some ">BBBB") 4 0) ?_ _ h2
  · exact absurd (hp.2 (by decide)) (by decide)
  · rintro ⟨g, hg, he⟩
    rw [reportJson_given, List.mem_singleton] at hg
    subst hg
    exact absurd he (by decide)
  · intro p hp
    rw [List.mem_singleton] at hp
    subst hp
    exact .inl ⟨rfl, .inr ⟨rfl, ".class", by decide, "./X".toList, by decide⟩⟩
  · have : (match (distEntryChange demoDist (.file "X.class".toList [] 0 .nil) (.file "X.class".toList [1] 0 .nil) false
        (.diff, "./X.class".toList)).check with
      | .error e => some e
      | .ok _ => none) = some (.unpack (some ">BBBB") 4 0) := by decide +kernel
    have hd : brokenWorld.dir "a".toList = .file "X.class".toList [] 0 .nil ∧
        brokenWorld.dir "b".toList = .file "X.class".toList [1] 0 .nil := ⟨rfl, rfl⟩
    rw [hd.1, hd.2]
    have hE : brokenWorld.E = demoDist := rfl
    rw [hE]
    cases hc : (distEntryChange demoDist (.file "X.class".toList [] 0 .nil) (.file "X.class".toList [1] 0 .nil) false
        (.diff, "./X.class".toList)).check with
    | error e => rw [hc] at this; rw [Option.some.inj this]
    | ok x => rw [hc] at this; cases this

/-! ## Examples -/

/-- The run of `distdiff a b --report html,json --report-dir=out` without processes. -/
def demoDistReport (W : DiffWorld) : ReportRun :=
  finishReport W {} (DiffNs.opts {}) (distSeqRun demoReports (DiffNs.show {})
    (Reporter.addFormatsByName { basedir := "out".toList, entry := "DistReport".toList } ["html".toList, "json".toList])
    W.E (W.dir "a".toList) (W.dir "b".toList) (DiffNs.opts {}) (DiffNs.shallow {}) "a".toList "b".toList)

def demoDistWords : List Str :=
  ["a".toList, "b".toList, "--report".toList, "html,json".toList, "--report-dir=out".toList]

def demoDistEvents : List ArgEvent :=
  [.files ["a".toList, "b".toList], .opt (spec .value ["--report"]) ["html,json".toList],
   .opt (spec .value ["--report-dir"]) ["out".toList]]

theorem demoDist_run (W : DiffWorld) :
    DistMain (fun _ => false) (fun _ => false) (fun _ => 0) 0 W demoReports demoDistWords (demoDistReport W) :=
  .report demoDistEvents {} "a".toList "b".toList [] _ (by decide +kernel) rfl (by decide) (by decide) (.seq (by decide))

set_option synthInstance.maxSize 1000

example : ((demoDistReport classWorld).seen.1, (demoDistReport classWorld).run.seen.2) =
    ([(.file "out/./X.class/JavaClassReport.html".toList, some "JavaClassReport".toList),
      (.file "out/./X.class/JavaClassReport.json".toList, none),
      (.file "out/DistReport.html".toList, some "DistReport".toList),
      (.file "out/DistReport.json".toList, none)], .ok 1) ∧
    (demoDistReport brokenWorld).seen = ([], none, .error (.unpack (some ">BBBB") 4 0)) := by
  decide +kernel

/-- Seven processes. -/
example (run : ReportRun) :
    DistMain (fun _ => false) (fun _ => false) (fun _ => 0) 7 classWorld demoReports demoDistWords run ↔
      run = demoDistReport classWorld :=
  C145_partial _ _ _ _ _ _ (fun _ => by decide) (by decide) (demoDist_run classWorld) (k := 1) (by decide +kernel) run

end Javatools
