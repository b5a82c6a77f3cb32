import Verif.Model.ReportMain
import Verif.Props.DiffMain
import Verif.Props.Report
/-
C142, C143: classdiff and jardiff with `--report`.
-/
namespace Javatools

/-! ## What the options say -/

/-- A file in a directory. -/
def fileIn (dir name : Str) : Str := if dir.getLast? = some '/' then dir ++ name else dir ++ '/' :: name

/-- The reports are written to the directory of the last `--report-dir`, or here. -/
structure DirIs (given : List (OptSpec × List Str)) (dir : Str) : Prop where
  last : ∀ d, d ≠ [] → (valuesOf given (spec .value ["--report-dir"])).getLast? = some d → dir = d
  here : (∀ d, d ≠ [] → (valuesOf given (spec .value ["--report-dir"])).getLast? ≠ some d) → dir = "./".toList

/-- The formats that the `--report` options name, each once. -/
structure FormatsAre (given : List (OptSpec × List Str)) (F : List Fmt) : Prop where
  nodup : F.Nodup
  mem : ∀ f, f ∈ F ↔ ∃ v ∈ valuesOf given (spec .value ["--report"]), ∃ x, CommaPart v x ∧ Named f x

/-- Something is asked for, even if it is not a format. -/
def Asked (given : List (OptSpec × List Str)) : Prop :=
  ∃ v ∈ valuesOf given (spec .value ["--report"]), v = [] ∨ ∃ x, x ≠ [] ∧ CommaPart v x

/-- The reports of one comparison: a file in each format. -/
def ReportsOf (dir : Str) (name : String) (F : List Fmt) (text : Str) (doc : Change.Json) (H : Str → Prop)
    (w : List (Target × Page)) : Prop :=
  ∃ h, (.html ∈ F → H h) ∧ w = F.map fun f =>
    match f with
    | .text => (.file (fileIn dir (name.toList ++ ".text".toList)), .text text)
    | .json => (.file (fileIn dir (name.toList ++ ".json".toList)), .json doc)
    | .html => (.file (fileIn dir (name.toList ++ ".html".toList)), .html h)

/-- A page that the template gives for the change. -/
def HtmlOf (P : ReportEnv) {O : Type} (o : O) (c : Change O) (dir h : Str) : Prop :=
  ∃ inst : FormatInst, inst.fmt = .html ∧ inst.basedir = dir ∧ P.html o inst c = .ok h

/-- Writing a report raises. -/
def Fault (P : ReportEnv) (e : PyErr) : Prop :=
  (∃ t, P.cannotWrite t = some e) ∨ ∃ (O : Type) (o : O) (inst : FormatInst) (c : Change O), P.html o inst c = .error e

/-- A command line with two files. -/
structure TwoFiles (isInt : Str → Bool) (t : DiffTool) (ps : List ArgPiece) (a b : Str) : Prop where
  good : ∀ p ∈ ps, p.Good isInt t.tool.opts
  run : OneRun .two ps
  files : piecesFiles ps = [a, b]

/-! ## One reporter -/

theorem fileIn_join {dir name : Str} (hd : dir ≠ []) (hn : name.head? ≠ some '/') : pathJoin dir name = fileIn dir name := by
  simp [pathJoin, fileIn, hn, hd]

/-- The page of a format. -/
def PageIs (text : Str) (doc : Change.Json) (H : Str → Prop) (p : Page) : Fmt → Prop
  | .text => p = .text text
  | .json => p = .json doc
  | .html => ∃ h, p = .html h ∧ H h

theorem ReportsOf.cons {dir : Str} {name : String} {F : List Fmt} {text : Str} {doc : Change.Json} {H : Str → Prop}
    {w : List (Target × Page)} {f : Fmt} {t : Target} {p : Page} (h : ReportsOf dir name F text doc H w)
    (ht : t = .file (fileIn dir (name.toList ++ f.extension))) (hf : f ∉ F)
    (hp : PageIs text doc H p f) : ReportsOf dir name (f :: F) text doc H ((t, p) :: w) := by
  obtain ⟨h0, h1, h2⟩ := h
  cases f with
  | text =>
    refine ⟨h0, fun h => h1 (by simpa using h), ?_⟩
    rw [List.map_cons, ← h2, ht, hp]
    rfl
  | json =>
    refine ⟨h0, fun h => h1 (by simpa using h), ?_⟩
    rw [List.map_cons, ← h2, ht, hp]
    rfl
  | html =>
    obtain ⟨h, hp, hH⟩ := hp
    refine ⟨h, fun _ => hH, ?_⟩
    rw [List.map_cons, ht, hp, h2]
    refine congrArg (List.cons _) (List.map_congr_left ?_)
    intro g hg
    cases g with
    | text => rfl
    | json => rfl
    | html => exact absurd hg hf

section
variable (P : ReportEnv) {O : Type} (o : O) (s : Change.ShowOpts)

/-- What is written, if nothing raises. -/
abbrev ReportOf (dir : Str) (name : String) (F : List Fmt) (c : Change O) (w : List (Target × Page)) : Prop :=
  ReportsOf dir name F (c.textReport o s) (c.toJson o s) (HtmlOf P o c dir) w

theorem writeTo_or (c : Change O) (dir : Str) (name : String) (crumbs : List (Str × Str)) (hd : dir ≠ [])
    (hn : ReportName name.toList) (F : List Fmt) (hF : F.Nodup) :
    ((writeTo P o s c (F.map fun f => (⟨f, dir, crumbs⟩, FormatInst.run ⟨f, dir, crumbs⟩ name.toList))).2 = none ∧
      ReportOf P o s dir name F c
        (writeTo P o s c (F.map fun f => (⟨f, dir, crumbs⟩, FormatInst.run ⟨f, dir, crumbs⟩ name.toList))).1) ∨
    (∃ e, (writeTo P o s c (F.map fun f => (⟨f, dir, crumbs⟩, FormatInst.run ⟨f, dir, crumbs⟩ name.toList))).2 = some e ∧
      Fault P e ∧ ∃ F', F' <+: F ∧ ReportOf P o s dir name F' c
        (writeTo P o s c (F.map fun f => (⟨f, dir, crumbs⟩, FormatInst.run ⟨f, dir, crumbs⟩ name.toList))).1) := by
  have hnil : ReportOf P o s dir name [] c [] := ⟨[], by simp, rfl⟩
  induction F with
  | nil => exact .inl ⟨rfl, hnil⟩
  | cons f F ih =>
    have ih := ih (List.nodup_cons.1 hF).2
    have hf := (List.nodup_cons.1 hF).1
    have ht : FormatInst.run ⟨f, dir, crumbs⟩ name.toList = .file (fileIn dir (name.toList ++ f.extension)) := by
      unfold FormatInst.run
      rw [if_neg hn.1]
      simp only [if_neg hd]
      rw [fileIn_join hd]
      obtain ⟨h1, h2⟩ := hn
      cases hx : name.toList with
      | nil => exact absurd hx h1
      | cons a as =>
        rw [hx] at h2
        simp only [List.cons_append, List.head?_cons, ne_eq, Option.some.injEq]
        rintro rfl
        exact h2 (.head _)
    rw [List.map_cons, writeTo]
    cases hw : P.cannotWrite (FormatInst.run ⟨f, dir, crumbs⟩ name.toList) with
    | some e => exact .inr ⟨e, rfl, .inl ⟨_, hw⟩, [], List.nil_prefix, hnil⟩
    | none =>
      simp only
      cases hp : pageOf P o s ⟨f, dir, crumbs⟩ c with
      | error e =>
        refine .inr ⟨e, rfl, ?_, [], List.nil_prefix, hnil⟩
        cases f with
        | text => simp [pageOf] at hp
        | json => simp [pageOf] at hp
        | html =>
          simp only [pageOf] at hp
          cases hh : P.html o ⟨.html, dir, crumbs⟩ c with
          | ok h => rw [hh] at hp; simp [Except.map] at hp
          | error e' =>
            rw [hh] at hp
            simp only [Except.map, Except.error.injEq] at hp
            subst hp
            exact .inr ⟨O, o, _, c, hh⟩
      | ok p =>
        have hpage : PageIs (c.textReport o s) (c.toJson o s) (HtmlOf P o c dir) p f := by
          cases f with
          | text => simp only [pageOf, Except.ok.injEq] at hp; exact hp.symm
          | json => simp only [pageOf, Except.ok.injEq] at hp; exact hp.symm
          | html =>
            simp only [pageOf] at hp
            cases hh : P.html o ⟨.html, dir, crumbs⟩ c with
            | error h => rw [hh] at hp; simp [Except.map] at hp
            | ok h =>
              rw [hh] at hp
              simp only [Except.map, Except.ok.injEq] at hp
              exact ⟨h, hp.symm, _, rfl, rfl, hh⟩
        rcases ih with ⟨h1, h2⟩ | ⟨e, h1, h2, F', h3, h4⟩
        · exact .inl ⟨h1, h2.cons ht hf hpage⟩
        · exact .inr ⟨e, h1, h2, f :: F', by simpa using h3, h4.cons ht (fun h => hf (h3.subset h)) hpage⟩

/-- A reporter that has not been set up. -/
structure Fresh (R : Reporter) (dir : Str) (name : String) (F : List Fmt) : Prop where
  basedir : R.basedir = dir
  dir : dir ≠ []
  entry : R.entry = name.toList
  formats : R.formats = F
  instances : R.instances = none
  crumbs : ∀ c ∈ R.crumbs, c.1 ≠ []

theorem report_or {R : Reporter} {dir : Str} {name : String} {F : List Fmt} (hR : Fresh R dir name F)
    (hn : ReportName name.toList) (hF : F.Nodup) (c : Change O) :
    ((R.report P o s c).2 = none ∧ ReportOf P o s dir name F c (R.report P o s c).1) ∨
    (∃ e, (R.report P o s c).2 = some e ∧ Fault P e ∧
      ∃ F', F' <+: F ∧ ReportOf P o s dir name F' c (R.report P o s c).1) := by
  obtain ⟨cs, h1, h2⟩ := setup_eq P.cwd R hR.crumbs
  have hrun : R.run P.cwd =
      .ok (F.map (fun f => (⟨f, dir, cs⟩, FormatInst.run ⟨f, dir, cs⟩ name.toList)), R) := by
    rcases h2 with ⟨-, h2⟩ | h2
    · exact absurd hR.instances h2
    · have := hR.instances
      unfold Reporter.run
      rw [this]
      simp only [h2, Option.getD_some, hR.formats, hR.basedir, hR.entry, List.map_map]
      refine congrArg Except.ok (Prod.ext rfl ?_)
      cases R
      obtain ⟨rfl, -, rfl, rfl, -, -⟩ := hR
      simp only at this
      subst this
      rfl
  unfold Reporter.report
  rw [hrun]
  exact writeTo_or P o s c dir name cs hR.dir hn F hF
end

theorem fresh_new {dir : Str} (hd : dir ≠ []) (name : String) (names : List Str) :
    ∃ F, Fresh (Reporter.addFormatsByName { basedir := dir, entry := name.toList } names) dir name F ∧ F.Nodup ∧
      F = (Reporter.addFormatsByName { basedir := dir, entry := name.toList } names).formats := by
  have key : ∀ (names : List Str) (R : Reporter), (R.addFormatsByName names).basedir = R.basedir ∧
      (R.addFormatsByName names).entry = R.entry ∧ (R.addFormatsByName names).crumbs = R.crumbs ∧
      (R.addFormatsByName names).instances = R.instances := by
    intro names
    induction names with
    | nil => exact fun R => ⟨rfl, rfl, rfl, rfl⟩
    | cons n ns ih =>
      intro R
      rw [Reporter.addFormatsByName]
      cases Fmt.byName n with
      | none => exact ih R
      | some f =>
        simp only
        have h := ih (R.addFormat f)
        have : (R.addFormat f).basedir = R.basedir ∧ (R.addFormat f).entry = R.entry ∧
            (R.addFormat f).crumbs = R.crumbs ∧ (R.addFormat f).instances = R.instances := by
          unfold Reporter.addFormat
          split <;> exact ⟨rfl, rfl, rfl, rfl⟩
        exact ⟨h.1.trans this.1, h.2.1.trans this.2.1, h.2.2.1.trans this.2.2.1, h.2.2.2.trans this.2.2.2⟩
  obtain ⟨h1, h2, h3, h4⟩ := key names { basedir := dir, entry := name.toList }
  exact ⟨_, ⟨h1, hd, h2, rfl, h4, by rw [h3]; simp⟩, nodup_addFormatsByName _ (by simp), rfl⟩

theorem Fresh.sub {R : Reporter} {dir : Str} {name : String} {F : List Fmt} (h : Fresh R dir name F) (e : Str)
    (name' : String) : Fresh (R.subreporter e name'.toList) (pathJoin dir e) name' F := by
  refine ⟨by rw [← h.basedir]; rfl, pathJoin_ne_nil h.dir, rfl, h.formats, rfl, ?_⟩
  intro c hc
  simp only [Reporter.subreporter, List.mem_append, List.mem_cons, List.not_mem_nil, or_false] at hc
  rcases hc with hc | rfl
  · exact h.crumbs c hc
  · rw [h.basedir]; exact h.dir

/-! ## The same change under another name -/

namespace Change
variable {O : Type}

theorem retype_isChange (n : String) (c : Change O) : (c.retype n).isChange = c.isChange := by
  cases c <;> rfl

theorem retype_isIgnored (n : String) (c : Change O) (o : O) : (c.retype n).isIgnored o = c.isIgnored o := by
  cases c with
  | leaf => rfl
  | squashed => rfl
  | super h short changed desc children =>
    simp only [retype, isIgnored, isChange]
    rfl

theorem retype_indent (n : String) (c : Change O) (o : O) (s : ShowOpts) (k : Nat) :
    (c.retype n).indentChange o s k = c.indentChange o s k := by
  have h1 := retype_isChange n c
  have h2 := retype_isIgnored n c o
  cases c with
  | leaf h cmp changed desc => rfl
  | squashed => rfl
  | super h short changed desc children =>
    simp only [retype] at h1 h2
    simp only [retype, indentChange, h1, h2]
    rfl

theorem retype_text (n : String) (c : Change O) (o : O) (s : ShowOpts) :
    (c.retype n).textReport o s = c.textReport o s := by
  unfold textReport
  rw [retype_indent]

theorem retype_status (n : String) (c : Change O) (o : O) : (c.retype n).exitStatus o = c.exitStatus o := by
  unfold exitStatus
  rw [retype_isChange, retype_isIgnored]

/-- The document with another name for the class. -/
def Json.renamed (n : String) : Json → Json
  | .obj _ ch d l i a r e cs => .obj n ch d l i a r e cs

theorem retype_json (n : String) (c : Change O) (o : O) (s : ShowOpts) :
    (c.retype n).toJson o s = (c.toJson o s).renamed n := by
  have h2 := retype_isIgnored n c o
  cases c with
  | leaf h cmp changed desc => rfl
  | squashed => rfl
  | super h short changed desc children =>
    simp only [retype] at h2
    simp only [retype, toJson, h2, Json.renamed]
    rfl

variable {Q : Type}

theorem comap_description (f : Q → O) (c : Change O) : (c.comap f).getDescription = c.getDescription := by
  cases c <;> rfl

theorem comap_indent (f : Q → O) (o : Q) (s : ShowOpts) : (c : Change O) → (n : Nat) →
    (c.comap f).indentChange o s n = c.indentChange (f o) s n
  | .leaf h cmp changed desc, n => by
    have h1 := comap_isIgnored f (.leaf h cmp changed desc) o
    have h2 := comap_isChange f (.leaf h cmp changed desc)
    have h3 := comap_description f (.leaf h cmp changed desc)
    simp only [comap] at h1 h2 h3
    simp only [comap, indentChange, h1, h2, h3]
  | .super h short changed desc children, n => by
    have h1 := comap_isIgnored f (.super h short changed desc children) o
    have h2 := comap_isChange f (.super h short changed desc children)
    have h3 := comap_description f (.super h short changed desc children)
    have hall : ∀ cs : List (Change O), (∀ c ∈ cs, c ∈ children) →
        indentAll o s (n + 1) (comapAll f cs) = indentAll (f o) s (n + 1) cs := by
      intro cs hcs
      induction cs with
      | nil => rfl
      | cons c cs ih =>
        have hm := hcs c List.mem_cons_self
        have : sizeOf c < sizeOf children := List.sizeOf_lt_of_mem hm
        simp only [comapAll, indentAll]
        rw [comap_indent f o s c, ih fun x hx => hcs x (List.mem_cons_of_mem _ hx)]
    simp only [comap] at h1 h2 h3
    simp only [comap, indentChange, h1, h2, h3, hall children fun _ h => h]
  | .squashed .., _ => rfl
termination_by c => sizeOf c

theorem comap_text (f : Q → O) (c : Change O) (o : Q) (s : ShowOpts) :
    (c.comap f).textReport o s = c.textReport (f o) s := by
  unfold textReport
  rw [comap_indent]

theorem comap_json (f : Q → O) (o : Q) (s : ShowOpts) : (c : Change O) →
    (c.comap f).toJson o s = c.toJson (f o) s
  | .leaf h cmp changed desc => by
    have h1 := comap_isIgnored f (.leaf h cmp changed desc) o
    have h2 := comap_isChange f (.leaf h cmp changed desc)
    have h3 := comap_description f (.leaf h cmp changed desc)
    simp only [comap] at h1 h2 h3
    simp only [comap, toJson, h1, h2, h3]
    rfl
  | .super h short changed desc children => by
    have h1 := comap_isIgnored f (.super h short changed desc children) o
    have h2 := comap_isChange f (.super h short changed desc children)
    have h3 := comap_description f (.super h short changed desc children)
    have hall : ∀ cs : List (Change O), (∀ c ∈ cs, c ∈ children) →
        toJsonKept o s (comapAll f cs) = toJsonKept (f o) s cs := by
      intro cs hcs
      induction cs with
      | nil => rfl
      | cons c cs ih =>
        have hm := hcs c List.mem_cons_self
        have : sizeOf c < sizeOf children := List.sizeOf_lt_of_mem hm
        simp only [comapAll, toJsonKept]
        rw [comap_json f o s c, comap_isChange, comap_isIgnored, ih fun x hx => hcs x (List.mem_cons_of_mem _ hx)]
    simp only [comap] at h1 h2 h3
    simp only [comap, toJson, h1, h2, h3, hall children fun _ h => h]
    rfl
  | .squashed .. => rfl
termination_by c => sizeOf c
end Change

/-! ## The command line -/

theorem foldl_files {β : Type} (f : β → ArgEvent → β) (fs : List Str) (hf : ∀ b, f b (.files fs) = b)
    (evs : List ArgEvent) (b : β) :
    (evs.filter fun ev => decide (ev ≠ .files fs)).foldl f b = evs.foldl f b := by
  induction evs generalizing b with
  | nil => rfl
  | cons ev evs ih =>
    by_cases h : ev = .files fs
    · rw [List.filter_cons_of_neg (by simpa using h), List.foldl_cons, h, hf, ih]
    · rw [List.filter_cons_of_pos (by simpa using h), List.foldl_cons, List.foldl_cons, ih]

theorem reportNames_given (given : List (OptSpec × List Str)) :
    reportNames (givenEvents given) = (valuesOf given (spec .value ["--report"])).foldl optReport [] := by
  unfold reportNames
  generalize ([] : List Str) = acc
  induction given generalizing acc with
  | nil => rfl
  | cons g given ih =>
    simp only [givenEvents, List.map_cons, List.foldl_cons]
    simp only [givenEvents] at ih
    rw [ih]
    unfold valuesOf
    rw [List.filter_cons]
    by_cases h : g.1 = spec .value ["--report"]
    · rw [if_pos h, if_pos (by simpa using h), List.flatMap_cons, List.foldl_append]
    · rw [if_neg h, if_neg (by simpa using h)]

theorem reportDir_given {given : List (OptSpec × List Str)} (hg : ∀ g ∈ given, Fits g) :
    reportDir (givenEvents given) = (valuesOf given (spec .value ["--report-dir"])).getLast? := by
  unfold reportDir
  have key : ∀ acc : Option Str, (givenEvents given).foldl (fun d ev => match ev with
      | .opt o args => if o = spec .value ["--report-dir"] then args.head? else d
      | .files _ => d) acc = ((valuesOf given (spec .value ["--report-dir"])).getLast?).or acc := by
    induction given with
    | nil => exact fun _ => rfl
    | cons g given ih =>
      intro acc
      simp only [givenEvents, List.map_cons, List.foldl_cons]
      have ih := ih fun x hx => hg x (List.mem_cons_of_mem _ hx)
      simp only [givenEvents] at ih
      rw [ih]
      unfold valuesOf
      rw [List.filter_cons]
      by_cases h : g.1 = spec .value ["--report-dir"]
      · rw [if_pos h, if_pos (by simpa using h), List.flatMap_cons]
        rcases (hg g List.mem_cons_self).arity with ⟨-, v, hv⟩ | ⟨ht, -⟩
        · rw [hv, List.getLast?_append]
          cases (List.flatMap Prod.snd (given.filter fun g => decide (g.1 = spec .value ["--report-dir"]))).getLast? <;> rfl
        · rw [h] at ht
          exact absurd ht (by decide)
      · rw [if_neg h, if_neg (by simpa using h)]
  refine (key none).trans ?_
  simp

theorem optReport_nil (vs : List Str) (acc : List Str) : vs.foldl optReport acc = [] ↔
    acc = [] ∧ ∀ v ∈ vs, v ≠ [] ∧ ∀ x, x ≠ [] → ¬ CommaPart v x := by
  induction vs generalizing acc with
  | nil => simp
  | cons v vs ih =>
    rw [List.foldl_cons, ih]
    have : optReport acc v = [] ↔ acc = [] ∧ v ≠ [] ∧ ∀ x, x ≠ [] → ¬ CommaPart v x := by
      unfold optReport
      by_cases hv : ',' ∈ v
      · rw [if_pos hv, List.append_eq_nil_iff, List.filter_eq_nil_iff]
        have hne : v ≠ [] := by rintro rfl; simp at hv
        simp only [decide_eq_true_eq, ne_eq, hne, not_false_eq_true, true_and]
        refine and_congr_right fun _ => ⟨fun h x hx hc => ?_, fun h x hx hn => ?_⟩
        · exact absurd hx (by simpa using h x ((mem_splitAll v x).2 hc))
        · exact h x hn ((mem_splitAll v x).1 hx)
      · rw [if_neg hv]
        simp only [List.append_eq_nil_iff, List.cons_ne_self, and_false, false_iff, not_and, reduceCtorEq]
        intro _ hne h
        exact h v hne ((commaPart_no hv).2 rfl)
    rw [this]
    simp only [List.mem_cons, forall_eq_or_imp]
    constructor
    · rintro ⟨⟨h1, h2⟩, h3⟩; exact ⟨h1, h2, h3⟩
    · rintro ⟨h1, h2, h3⟩; exact ⟨⟨h1, h2⟩, h3⟩

theorem orHere_is {given : List (OptSpec × List Str)} :
    DirIs given (orHere (valuesOf given (spec .value ["--report-dir"])).getLast?) ∧
      orHere (valuesOf given (spec .value ["--report-dir"])).getLast? ≠ [] := by
  cases h : (valuesOf given (spec .value ["--report-dir"])).getLast? with
  | none =>
    refine ⟨⟨fun d _ e => ?_, fun _ => rfl⟩, by simp [orHere]⟩
    rw [h] at e
    simp at e
  | some d =>
    cases d with
    | nil =>
      refine ⟨⟨fun d hd e => ?_, fun _ => rfl⟩, by simp [orHere]⟩
      rw [h] at e
      exact absurd (Option.some.inj e).symm hd
    | cons x d =>
      refine ⟨⟨fun d' _ e => ?_, fun e => ?_⟩, by simp [orHere]⟩
      · rw [h] at e
        exact Option.some.inj e
      · exact absurd h (e _ (by simp))

/-- The namespace for a command line that is accepted. -/
theorem report_namespace (negNum : Str → Bool) {isInt : Str → Bool} {t : DiffTool} {ps : List ArgPiece} {a b : Str}
    (h : TwoFiles isInt t ps a b) :
    ∃ evs, t.tool.parse negNum isInt (piecesWords ps) = .ok evs ∧ eventFiles evs = [a, b] ∧
      reportNames evs = (valuesOf (piecesGiven ps) (spec .value ["--report"])).foldl optReport [] ∧
      reportDir evs = (valuesOf (piecesGiven ps) (spec .value ["--report-dir"])).getLast? ∧
      ((Conflict (piecesGiven ps) ∧ diffSteps {} evs = .error .attributeError) ∨
       (¬ Conflict (piecesGiven ps) ∧ ∃ ns, diffSteps {} evs = .ok ns ∧ NsMeans (piecesGiven ps) ns)) := by
  have hr : OneRun t.tool.nargs ps := by
    have : t.tool.nargs = .two := by cases t <;> rfl
    rw [this]
    exact h.run
  obtain ⟨evs, h1, h2, h3⟩ := C134_partial (negNum := negNum) t.tool h.good hr
  obtain ⟨evs', h1', hm, h4⟩ := parsed_events negNum h.good hr
  rw [h1] at h1'
  obtain rfl := Except.ok.inj h1'
  refine ⟨evs, h1, h4.trans h.files, ?_, ?_, ?_⟩
  · rw [← reportNames_given, ← h2]
    exact (foldl_files _ _ (fun _ => rfl) _ _).symm
  · rw [← reportDir_given (good_fits h.good), ← h2]
    exact (foldl_files _ _ (fun _ => rfl) _ _).symm
  · have := steps_spec nsMeans_nil (good_fits h.good)
    rw [List.nil_append, ← h2, steps_files] at this
    exact this

theorem asked_iff (given : List (OptSpec × List Str)) :
    (valuesOf given (spec .value ["--report"])).foldl optReport [] ≠ [] ↔ Asked given := by
  rw [ne_eq, optReport_nil]
  unfold Asked
  constructor
  · intro h
    simp only [true_and, Classical.not_forall, not_and, Classical.not_not] at h
    obtain ⟨v, hv, h⟩ := h
    by_cases hn : v = []
    · exact ⟨v, hv, .inl hn⟩
    · obtain ⟨x, hx, hc⟩ := h hn
      exact ⟨v, hv, .inr ⟨x, hx, hc⟩⟩
  · rintro ⟨v, hv, h⟩ ⟨-, hall⟩
    rcases h with rfl | ⟨x, hx, hc⟩
    · exact (hall _ hv).1 rfl
    · exact (hall _ hv).2 x hx hc

theorem PatternsAre.values {given : List (OptSpec × List Str)} {k : String} {o : OptSpec} {x : Option (List Str)}
    (h : PatternsAre given k o x) (hn : (∃ g ∈ given, NamesAttr g k.toList) → ¬ Has given o) :
    x.getD [] = valuesOf given o := by
  by_cases hk : ∃ g ∈ given, NamesAttr g k.toList
  · rw [h.named hk, valuesOf_absent (hn hk)]
    rfl
  · rw [h.given hk]
    rfl

/-- The namespace is what the options mean, as long as no pattern is given to an option that `--ignore` names. -/
theorem NsMeans.means {given : List (OptSpec × List Str)} {ns : DiffNs} (h : NsMeans given ns)
    (hn : ∀ x ∈ patternOpts, (∃ g ∈ given, NamesAttr g x.1.toList) → ¬ Has given x.2) : DiffMeans given ns.args := by
  constructor
  · exact h.flags
  · exact h.keys.values (hn ("ignore_manifest_key", _) (.head _))
  · exact h.entries.values (hn ("ignore_jar_entry", _) (.tail _ (.head _)))
  · exact h.files.values (hn ("ignore_filenames", _) (.tail _ (.tail _ (.head _))))
  · exact h.unchanged
  · exact h.ignored
  · exact h.silent
  · exact h.json
  · exact h.shallow
  · intro name
    show ns.dest = some name ↔ _
    rw [dest_iff, h.output]

/-! ## C142 -/

section
variable (negNum : Str → Bool) {isInt : Str → Bool} (W : DiffWorld) (P : ReportEnv)

/-- C142: a run of classdiff with `--report` ends with the exception that reading or comparing raises, without any
files; or with the one that writing a report raises, with the reports in the formats before it; or else with a
report in each format and what is printed and returned for the comparison. -/
theorem C142_run {ps : List ArgPiece} {a b : Str} (h : TwoFiles isInt .classdiff ps a b)
    (ha : Asked (piecesGiven ps)) :
    ∃ A dir F, DiffMeans (piecesGiven ps) A ∧ DirIs (piecesGiven ps) dir ∧ FormatsAre (piecesGiven ps) F ∧
    (∀ e, classDelta W a b = .error e →
      reportMain negNum isInt W P .classdiff (piecesWords ps) = ⟨[], none, .error e⟩) ∧
    (∀ c, classDelta W a b = .ok c →
      (∃ e F', Fault P e ∧ F' <+: F ∧
        ReportOf P A.opts.flags A.shows dir "JavaClassReport" F' (c.retype "JavaClassReport")
          (reportMain negNum isInt W P .classdiff (piecesWords ps)).files ∧
        (reportMain negNum isInt W P .classdiff (piecesWords ps)).run = ⟨none, .error e⟩) ∨
      (ReportOf P A.opts.flags A.shows dir "JavaClassReport" F (c.retype "JavaClassReport")
          (reportMain negNum isInt W P .classdiff (piecesWords ps)).files ∧
        RunIs W A A.opts.flags (c.retype "JavaClassReport")
          (reportMain negNum isInt W P .classdiff (piecesWords ps)).run)) := by
  obtain ⟨evs, h1, h2, h3, h5, h4⟩ := report_namespace negNum h
  rcases h4 with ⟨h4, -⟩ | ⟨-, ns, h4, hn⟩
  · exact absurd h4 (classdiff_noConflict h.good)
  have hne := (asked_iff _).2 ha
  have hmain : reportMain negNum isInt W P .classdiff (piecesWords ps) =
      reportCli W P .classdiff ns (orHere (reportDir evs)) (reportNames evs) a b := by
    unfold reportMain
    rw [h1]
    simp only [h4, h2]
    rw [if_neg (by rw [h3]; exact hne)]
  rw [h5, h3] at hmain
  obtain ⟨hd1, hd2⟩ := @orHere_is (piecesGiven ps)
  obtain ⟨F, hF, hFn, hFe⟩ := fresh_new hd2 "JavaClassReport"
    ((valuesOf (piecesGiven ps) (spec .value ["--report"])).foldl optReport [])
  have hFs := C110_formats (orHere (valuesOf (piecesGiven ps) (spec .value ["--report-dir"])).getLast?)
    "JavaClassReport".toList (valuesOf (piecesGiven ps) (spec .value ["--report"]))
  simp only [← hFe] at hFs
  refine ⟨ns.args, _, F, hn.means ?_, hd1, ⟨hFn, hFs.2⟩, ?_, ?_⟩
  · rintro x hx - ⟨g, hg, he⟩
    have := good_mem h.good g hg
    rw [he] at this
    have hno : ∀ x ∈ patternOpts, x.2 ∉ Tool.classdiff.opts := by decide +kernel
    exact hno x hx this
  · intro e he
    rw [hmain]
    unfold classDelta at he
    unfold reportCli
    simp only
    cases hl : W.cls a with
    | error e' =>
      simp only [hl, Except.bind, Except.error.injEq] at he
      subst he; rfl
    | ok l =>
      cases hr : W.cls b with
      | error e' =>
        simp only [hl, hr, Except.bind, Except.error.injEq] at he
        subst he; rfl
      | ok r =>
        simp only [hl, hr, Except.bind] at he
        simp only [classReport, he, finishReport]
        rfl
  · intro c hc
    rw [hmain]
    unfold classDelta at hc
    unfold reportCli
    simp only
    cases hl : W.cls a with
    | error e' => simp [hl, Except.bind] at hc
    | ok l =>
      cases hr : W.cls b with
      | error e' => simp [hl, hr, Except.bind] at hc
      | ok r =>
        simp only [hl, hr, Except.bind] at hc
        simp only [classReport, hc, reported]
        rcases report_or P ns.flags ns.show hF reportName_class hFn (c.retype "JavaClassReport") with
          ⟨q1, q2⟩ | ⟨e, q1, q2, F', q3, q4⟩
        · refine .inr ?_
          generalize Reporter.report P ns.flags ns.show _ (c.retype "JavaClassReport") = out at q1 q2
          obtain ⟨w, x⟩ := out
          simp only at q1 q2
          subst q1
          exact ⟨q2, finish_is W ns ns.flags _⟩
        · refine .inl ⟨e, F', q2, q3, ?_⟩
          generalize Reporter.report P ns.flags ns.show _ (c.retype "JavaClassReport") = out at q1 q4
          obtain ⟨w, x⟩ := out
          simp only at q1 q4
          subst q1
          exact ⟨q4, rfl⟩

theorem RunIs.retyped {O : Type} {W : DiffWorld} {A : DiffArgs} {o : O} {c : Change O} {n : String} {run : DiffRun}
    (h : RunIs W A o (c.retype n) run) (hj : A.json = false) : RunIs W A o c run := by
  constructor
  · rw [← Change.retype_status n c]; exact h.quiet
  · exact h.refused
  · rw [← Change.retype_status n c, ← Change.retype_text n c]; exact h.text
  · intro _ h2
    rw [hj] at h2
    simp at h2

/-- C142: if nothing is wrong with writing the reports then, without `-j`, a run prints and returns what it does
without `--report`. -/
theorem C142_same (other : List ArgEvent → DiffRun) {ps ps' : List ArgPiece} {a b : Str}
    (h : TwoFiles isInt .classdiff ps a b) (h' : Compares isInt .classdiff ps' a b) {A : DiffArgs}
    (hA : DiffMeans (piecesGiven ps) A) (hA' : DiffMeans (piecesGiven ps') A) (hj : A.json = false)
    (ha : Asked (piecesGiven ps)) (hf : ∀ e, ¬ Fault P e) :
    (reportMain negNum isInt W P .classdiff (piecesWords ps)).run =
      diffMain negNum isInt W other .classdiff (piecesWords ps') := by
  obtain ⟨B, dir, F, hB, -, -, h1, h2⟩ := C142_run negNum W P h ha
  obtain ⟨h3, h4⟩ := C140_run negNum W other h' hA'
  cases hc : classDelta W a b with
  | error e => rw [h1 e hc, h3 e hc]
  | ok c =>
    rcases h2 c hc with ⟨e, F', hfe, -⟩ | ⟨-, hr⟩
    · exact absurd hfe (hf e)
    · have hq : A.quiet = B.quiet := Bool.eq_iff_iff.2 (hA.quiet.trans hB.quiet.symm)
      have hjs : A.json = B.json := Bool.eq_iff_iff.2 (hA.json.trans hB.json.symm)
      have hs : A.shows = B.shows := ShowOpts_ext (Bool.eq_iff_iff.2 (hA.unchanged.trans hB.unchanged.symm))
        (Bool.eq_iff_iff.2 (hA.ignored.trans hB.ignored.symm))
      have hd : A.dest = B.dest := Option.ext fun name => by rw [hA.dest, hB.dest]
      have hfl : SameFlags A.opts.flags B.opts.flags :=
        fun name => Bool.eq_iff_iff.2 ((hA.flags name).trans (hB.flags name).symm)
      exact ((hr.retyped (hjs ▸ hj)).congr hq hjs hs hd hfl (classDelta_resp hc)).unique (h4 c hc)

/-- C142: a list for `--report` that has commas and nothing else asks for nothing. -/
theorem C142_none {ps : List ArgPiece} {a b : Str} (h : TwoFiles isInt .classdiff ps a b)
    (ha : ¬ Asked (piecesGiven ps)) {A : DiffArgs} (hA : DiffMeans (piecesGiven ps) A) :
    (reportMain negNum isInt W P .classdiff (piecesWords ps)).files = [] ∧
    (∀ e, classDelta W a b = .error e →
      (reportMain negNum isInt W P .classdiff (piecesWords ps)).run = ⟨none, .error e⟩) ∧
    (∀ c, classDelta W a b = .ok c →
      RunIs W A A.opts.flags c (reportMain negNum isInt W P .classdiff (piecesWords ps)).run) := by
  obtain ⟨evs, h1, h2, h3, h5, h4⟩ := report_namespace negNum h
  rcases h4 with ⟨h4, -⟩ | ⟨-, ns, h4, hn⟩
  · exact absurd h4 (classdiff_noConflict h.good)
  have hag := hn.agree hA
  have hmain : reportMain negNum isInt W P .classdiff (piecesWords ps) = ⟨[], diffCli W .classdiff ns a b⟩ := by
    unfold reportMain
    rw [h1]
    simp only [h4, h2]
    rw [if_pos]
    rw [h3]
    exact Classical.byContradiction fun hne => ha ((asked_iff _).1 hne)
  rw [hmain]
  refine ⟨rfl, ?_, ?_⟩
  · intro e hc
    unfold classDelta at hc
    simp only [diffCli, hc]
    rfl
  · intro c hc
    have hr := classDelta_resp hc
    unfold classDelta at hc
    simp only [diffCli, hc]
    exact (finish_is W ns ns.flags c).congr hag.quiet hag.json hag.shows hag.dest hag.flags hr

/-! ## C143 -/

/-- Both archives have this class, and the comparison of the two. -/
def ClassPair (E : JarEnv) (l r : Archive) (e : Str) (c : Change Opts) : Prop :=
  ∃ x y i j, l.openRead e = .ok x ∧ r.openRead e = .ok y ∧ unpackPayload E.lim x = .ok i ∧
    unpackPayload E.lim y = .ok j ∧ (javaClassChange E.T E.lim E.depth i j).check = .ok c

/-- The reports of the classes of two archives, one class after the other. -/
inductive ClassReports (P : ReportEnv) (o : DiffOpts) (s : Change.ShowOpts) (E : JarEnv) (l r : Archive) (dir : Str)
    (F : List Fmt) : List Str → List (Target × Page) → Prop where
  | nil : ClassReports P o s E l r dir F [] []
  | cons {e es c w ws} : ClassPair E l r e c →
      ReportsOf (pathJoin dir e) "JavaClassReport" F (c.textReport o.flags s)
        ((c.toJson o.flags s).renamed "JavaClassReport")
        (HtmlOf P o ((c.comap DiffOpts.flags).retype "JavaClassReport") (pathJoin dir e)) w →
      ClassReports P o s E l r dir F es ws → ClassReports P o s E l r dir F (e :: es) (w ++ ws)

theorem reportedEntries_cons (x : Change DiffOpts) (xs : List (Change DiffOpts)) :
    reportedEntries (x :: xs) = (if isReported x then x.hdr.entry.toList else []) ++ reportedEntries xs := by
  unfold reportedEntries
  rw [List.filterMap_cons]
  by_cases h : isReported x = true
  · rw [if_pos h, if_pos h]
    cases x.hdr.entry <;> rfl
  · rw [if_neg h, if_neg h]
    rfl

/-- A class that is reported. -/
theorem reported_class {E : JarEnv} {l r : Archive} {p : Event × Str}
    (h : isReported (jarEntryChange E l r p) = true) : jarEntryChange E l r p = jarClassChange E l r p.2 true := by
  obtain ⟨ev, f⟩ := p
  obtain rfl := jarEntryChange_reported E l r ev f h
  have ht : (jarEntryChange E l r (.diff, f)).hdr.typeName = "JarClassChange" := by
    simp only [isReported, Bool.and_eq_true, decide_eq_true_eq] at h
    exact h.1
  revert ht
  simp only [jarEntryChange]
  split
  · exact fun ht => absurd (show "JarManifestChange" = "JarClassChange" from ht) (by decide)
  · split
    · exact fun ht => absurd (show "JarSignatureFileChange" = "JarClassChange" from ht) (by decide)
    · split
      · exact fun ht => absurd (show "JarSignatureBlockFileChange" = "JarClassChange" from ht) (by decide)
      · split
        · exact fun _ => rfl
        · exact fun ht => absurd (show "JarGenericFileChange" = "JarClassChange" from ht) (by decide)

/-- What it is when it has been checked. -/
theorem class_checked {E : JarEnv} {l r : Archive} {e : Str} {x : Change DiffOpts}
    (h : (jarClassChange E l r e true).check = .ok x) :
    ∃ c, ClassPair E l r e c ∧ x.collect = [c.comap DiffOpts.flags] ∧ x.hdr.entry = some e := by
  unfold jarClassChange jarContent at h
  simp only [if_true, Change.check] at h
  cases hr : readBoth (unpackPayload E.lim) l r e with
  | error e' => simp [hr, Except.map, orRaise, raising, Change.checkAll, Change.check] at h
  | ok p =>
    simp only [hr, Except.map, orRaise, Change.checkAll] at h
    rw [Change.comap_check] at h
    cases hc : (javaClassChange E.T E.lim E.depth p.1 p.2).check with
    | error e' => simp [hc, Except.map] at h
    | ok c =>
      simp only [hc, Except.map, Except.ok.injEq] at h
      refine ⟨c, ?_, by rw [← h]; rfl, by rw [← h]; rfl⟩
      unfold readBoth at hr
      split at hr
      · simp at hr
      · rename_i x hx
        split at hr
        · simp at hr
        · rename_i i hi
          split at hr
          · simp at hr
          · rename_i y hy
            split at hr
            · simp at hr
            · rename_i j hj
              rw [← Except.ok.inj hr] at hc
              exact ⟨x, y, i, j, hx, hy, hi, hj, hc⟩

theorem reportLoop_or {R : Reporter} {dir : Str} {name : String} {F : List Fmt} (hR : Fresh R dir name F)
    (hF : F.Nodup) (o : DiffOpts) (s : Change.ShowOpts) (E : JarEnv) (l r : Archive) (cs : List (Change DiffOpts))
    (hcs : ∀ x ∈ cs, ∃ p, x = jarEntryChange E l r p) (b : Bool) :
    (∃ q, (reportLoop P s R o cs b).2 = .ok q ∧ reportAll o cs b = .ok q ∧
      ClassReports P o s E l r dir F (reportedEntries cs) (reportLoop P s R o cs b).1) ∨
    (∃ e, (reportLoop P s R o cs b).2 = .error e ∧ (Change.checkAll cs b = .error e ∨ Fault P e)) := by
  induction cs generalizing b with
  | nil => exact .inl ⟨_, rfl, rfl, .nil⟩
  | cons x xs ih =>
    obtain ⟨p, hp⟩ := hcs x List.mem_cons_self
    rw [reportLoop, reportAll, Change.checkAll]
    cases hx : x.check with
    | error e => exact .inr ⟨e, rfl, .inl rfl⟩
    | ok x' =>
      simp only
      have hsub : (∃ w, (if isReported x then subReport P s R o x' else ([], none)) = (w, none) ∧
          ∀ ws, ClassReports P o s E l r dir F (reportedEntries xs) ws →
            ClassReports P o s E l r dir F (reportedEntries (x :: xs)) (w ++ ws)) ∨
          (∃ w e, (if isReported x then subReport P s R o x' else ([], none)) = (w, some e) ∧ Fault P e) := by
        rw [reportedEntries_cons]
        by_cases hr : isReported x = true
        · rw [if_pos hr, if_pos hr]
          rw [hp] at hr
          have hx2 := hx
          rw [hp, reported_class hr] at hx2
          obtain ⟨c, hc1, hc2, hc3⟩ := class_checked hx2
          have hent : x.hdr.entry = some p.2 := by
            rw [hp]
            exact jarEntryChange_entry E l r p.1 p.2
          unfold subReport
          rw [hc2, hc3, hent]
          simp only [Option.toList_some, List.singleton_append]
          rcases report_or P o s (hR.sub p.2 "JavaClassReport") reportName_class hF
            ((c.comap DiffOpts.flags).retype "JavaClassReport") with ⟨q1, q2⟩ | ⟨e, q1, q2, -⟩
          · refine .inl ⟨_, Prod.ext rfl q1, fun ws hws => .cons hc1 ?_ hws⟩
            unfold ReportOf at q2
            rw [Change.retype_text, Change.comap_text, Change.retype_json, Change.comap_json] at q2
            exact q2
          · exact .inr ⟨_, e, Prod.ext rfl q1, q2⟩
        · rw [if_neg hr, if_neg hr]
          exact .inl ⟨[], rfl, fun ws hws => by simpa using hws⟩
      rcases hsub with ⟨w, hw, hcls⟩ | ⟨w, e, hw, hfe⟩
      · rw [hw]
        simp only
        rcases ih (fun y hy => hcs y (List.mem_cons_of_mem _ hy)) (b || x'.isChange) with ⟨q, h1, h2, h3⟩ | ⟨e, h1, h2⟩
        · refine .inl ?_
          generalize reportLoop P s R o xs (b || x'.isChange) = out at h1 h3
          obtain ⟨ws, y⟩ := out
          simp only at h1 h3
          subst h1
          rw [h2]
          obtain ⟨q1, q2⟩ := q
          exact ⟨_, rfl, rfl, hcls _ h3⟩
        · refine .inr ⟨e, ?_, ?_⟩
          · generalize reportLoop P s R o xs (b || x'.isChange) = out at h1
            obtain ⟨ws, y⟩ := out
            simp only at h1
            subst h1
            rfl
          · rcases h2 with h2 | h2
            · exact .inl (by rw [h2])
            · exact .inr h2
      · rw [hw]
        exact .inr ⟨e, rfl, .inr hfe⟩

theorem children_entries {E : JarEnv} {l r : Archive} {cs : List (Change DiffOpts)}
    (h : jarContentsChildren E l r = .ok cs) : ∃ evs, compareZips E.order l r = (evs, none) ∧
      cs.Perm (evs.map (jarEntryChange E l r)) := by
  unfold jarContentsChildren at h
  split at h
  · cases h
  · rename_i evs hev
    cases h
    exact ⟨evs, hev, C37_permutation _ _ _⟩

/-- The whole comparison with reports. -/
theorem jarReport_or {R : Reporter} {dir : Str} {F : List Fmt} (hR : Fresh R dir "JarReport" F)
    (hF : F.Nodup) (o : DiffOpts) (s : Change.ShowOpts) (E : JarEnv) (l r : Archive) :
    (∃ d cs w w', jarReportCheck E l r o = .ok d ∧ jarContentsChildren E l r = .ok cs ∧
      jarReportRun P s R E o l r = (w ++ w', .ok d) ∧ ClassReports P o s E l r dir F (reportedEntries cs) w ∧
      ReportOf P o s dir "JarReport" F d w') ∨
    (∃ e, (jarReportRun P s R E o l r).2 = .error e ∧ ((jarChange E l r).check = .error e ∨ Fault P e)) := by
  obtain ⟨t, ht, -⟩ := jarTypeChange_check l r
  rw [jarChange_check E l r t ht]
  unfold jarReportRun jarReportCheck
  rw [ht]
  simp only
  cases hc : jarContentsChildren E l r with
  | error e => exact .inr ⟨e, rfl, .inl rfl⟩
  | ok cs =>
    simp only
    obtain ⟨evs, -, hperm⟩ := children_entries hc
    rcases reportLoop_or P hR hF o s E l r cs (fun x hx => by
      obtain ⟨p, -, hp⟩ := List.mem_map.1 (hperm.mem_iff.1 hx)
      exact ⟨p, hp.symm⟩) false with ⟨q, h1, h2, h3⟩ | ⟨e, h1, h2⟩
    · generalize reportLoop P s R o cs false = out at h1 h3
      obtain ⟨w, y⟩ := out
      simp only at h1 h3
      subst h1
      rw [h2]
      obtain ⟨cs', c⟩ := q
      simp only
      generalize hd : Change.super _ none (false || t.isChange || c) none _ = d
      rcases report_or P o s hR reportName_jar hF d with ⟨q1, q2⟩ | ⟨e, q1, q2, -⟩
      · refine .inl ⟨d, cs, w, _, rfl, rfl, ?_, h3, q2⟩
        unfold reported
        generalize Reporter.report P o s R d = out at q1
        obtain ⟨w', z⟩ := out
        simp only at q1
        subst q1
        rfl
      · refine .inr ⟨e, ?_, .inr q2⟩
        unfold reported
        generalize Reporter.report P o s R d = out at q1
        obtain ⟨w', z⟩ := out
        simp only at q1
        subst q1
        rfl
    · refine .inr ⟨e, ?_, ?_⟩
      · generalize reportLoop P s R o cs false = out at h1
        obtain ⟨w, y⟩ := out
        simp only at h1
        subst h1
        rfl
      · rcases h2 with h2 | h2
        · exact .inl (by rw [h2])
        · exact .inr h2

end

/-! ### What is printed -/

/-- The lines for an entry, without what changed inside a class. -/
def briefLines (o : DiffOpts) (s : Change.ShowOpts) (x : Change DiffOpts) : List Str :=
  if x.hdr.typeName = "JarClassChange" then (x.indentChange o s 2).take 1 else x.indentChange o s 2

/-- `d` is the comparison `c` of two JARs in brief: the verdict is the same, and so are the lines, apart from those
about the insides of classes. -/
def Brief (o : DiffOpts) (s : Change.ShowOpts) (c d : Change DiffOpts) : Prop :=
  d.isChange = c.isChange ∧ d.isIgnored o = c.isIgnored o ∧
  ∃ h1 h2 b1 b2 t ys, c = .super h1 none b1 none [t, .super h2 none b2 none ys] ∧
    (d.indentChange o s 0 = c.indentChange o s 0 ∨
     ∃ H, c.indentChange o s 0 = H ++ ys.flatMap (fun y => y.indentChange o s 2) ∧
       d.indentChange o s 0 = H ++ ys.flatMap (briefLines o s))

namespace Change
variable {O : Type}

theorem squash_lines (h : Hdr O) (b : Bool) (ys : List (Change O)) (o : O) (s : ShowOpts) (n : Nat)
    (hk : h.kind = .plain) (hd : Described (.super h none b none ys)) :
    ((Change.super h none b none ys).squash false (some o)).indentChange o s n =
      ((Change.super h none b none ys).indentChange o s n).take 1 := by
  obtain ⟨h1, h2, h3, -⟩ := C36_squash (.super h none b none ys) o false hd
  generalize hsq : (Change.super h none b none ys).squash false (some o) = q at h1 h2 h3
  obtain ⟨a1, a2, a3, a4, a5, rfl⟩ : ∃ a1 a2 a3 a4 a5, q = .squashed a1 a2 a3 a4 a5 := by
    rw [← hsq]
    simp only [squash, hdr, hk]
    exact ⟨_, _, _, _, _, rfl⟩
  simp only [indentChange, h1, h2, h3]
  split
  · split
    · split <;> rfl
    · rfl
  · split <;> rfl

theorem indentAll_flatMap (o : O) (s : ShowOpts) (n : Nat) (cs : List (Change O)) :
    indentAll o s n cs = cs.flatMap fun c => c.indentChange o s n := by
  induction cs with
  | nil => rfl
  | cons c cs ih => rw [indentAll, List.flatMap_cons, ih]
end Change

theorem class_type {E : JarEnv} {l r : Archive} {p : Event × Str}
    (ht : (jarEntryChange E l r p).hdr.typeName = "JarClassChange") :
    ∃ b, jarEntryChange E l r p = jarClassChange E l r p.2 b := by
  obtain ⟨ev, f⟩ := p
  revert ht
  cases ev with
  | diff =>
    simp only [jarEntryChange]
    split
    · exact fun ht => absurd (show "JarManifestChange" = "JarClassChange" from ht) (by decide)
    · split
      · exact fun ht => absurd (show "JarSignatureFileChange" = "JarClassChange" from ht) (by decide)
      · split
        · exact fun ht => absurd (show "JarSignatureBlockFileChange" = "JarClassChange" from ht) (by decide)
        · split
          · exact fun _ => ⟨_, rfl⟩
          · exact fun ht => absurd (show "JarGenericFileChange" = "JarClassChange" from ht) (by decide)
  | same =>
    simp only [jarEntryChange]
    split
    · exact fun ht => absurd (show "JarManifestChange" = "JarClassChange" from ht) (by decide)
    · split
      · exact fun ht => absurd (show "JarSignatureFileChange" = "JarClassChange" from ht) (by decide)
      · split
        · exact fun ht => absurd (show "JarSignatureBlockFileChange" = "JarClassChange" from ht) (by decide)
        · split
          · exact fun _ => ⟨_, rfl⟩
          · exact fun ht => absurd (show "JarContentChange" = "JarClassChange" from ht) (by decide)
  | left =>
    simp only [jarEntryChange]
    (repeat' split) <;> exact fun h => absurd h (notClass _ (by decide))
  | right =>
    simp only [jarEntryChange]
    (repeat' split) <;> exact fun h => absurd h (notClass _ (by decide))

/-- The lines for a class that has been compared. -/
theorem class_lines {E : JarEnv} {l r : Archive} {e : Str} {b : Bool} {x : Change DiffOpts}
    (h : (jarClassChange E l r e b).check = .ok x) (o : DiffOpts) (s : Change.ShowOpts) :
    (if isReported (jarClassChange E l r e b) then x.squash false (some o) else x).indentChange o s 2 =
      (x.indentChange o s 2).take 1 := by
  have hrep : isReported (jarClassChange E l r e b) = b := by
    cases b <;> rfl
  rw [hrep]
  unfold jarClassChange jarContent at h
  cases b with
  | false =>
    simp only [Bool.false_eq_true, if_false, Change.check, Change.checkAll, Except.ok.injEq] at h ⊢
    rw [← h]
    simp only [Change.indentChange, Change.indentAll]
    split
    · split
      · split <;> rfl
      · rfl
    · split <;> rfl
  | true =>
    simp only [if_true, Change.check] at h ⊢
    split at h
    · simp at h
    · rw [← Except.ok.inj h]
      refine Change.squash_lines _ _ _ o s 2 rfl ?_
      intro f hf b
      have hf : some _ = some f := hf
      rw [← Option.some.inj hf]
      exact fun h => absurd (List.append_eq_nil_iff.1 (List.append_eq_nil_iff.1 h).1).2 (by decide)

theorem reportAll_lines (E : JarEnv) (l r : Archive) (o : DiffOpts) (s : Change.ShowOpts) (cs : List (Change DiffOpts))
    (hcs : ∀ x ∈ cs, ∃ p, x = jarEntryChange E l r p) (b : Bool) (cs' cs'' : List (Change DiffOpts)) (b' b'' : Bool)
    (h1 : Change.checkAll cs b = .ok (cs', b')) (h2 : reportAll o cs b = .ok (cs'', b'')) :
    cs''.flatMap (fun y => y.indentChange o s 2) = cs'.flatMap (briefLines o s) := by
  induction cs generalizing b cs' cs'' with
  | nil =>
    simp only [Change.checkAll, reportAll, Except.ok.injEq, Prod.mk.injEq] at h1 h2
    rw [← h1.1, ← h2.1]
    rfl
  | cons x xs ih =>
    rw [Change.checkAll] at h1
    rw [reportAll] at h2
    cases hx : x.check with
    | error e => simp [hx] at h1
    | ok x' =>
      simp only [hx] at h1 h2
      cases h3 : Change.checkAll xs (b || x'.isChange) with
      | error e => simp [h3] at h1
      | ok q =>
        cases h4 : reportAll o xs (b || x'.isChange) with
        | error e => simp [h4] at h2
        | ok q' =>
          obtain ⟨q1, q2⟩ := q
          obtain ⟨q1', q2'⟩ := q'
          simp only [h3, Except.ok.injEq, Prod.mk.injEq] at h1
          simp only [h4, Except.ok.injEq, Prod.mk.injEq] at h2
          obtain ⟨rfl, rfl⟩ := h1
          obtain ⟨rfl, rfl⟩ := h2
          rw [List.flatMap_cons, List.flatMap_cons, ih (fun y hy => hcs y (List.mem_cons_of_mem _ hy)) _ _ _ h3 h4]
          congr 1
          obtain ⟨p, hp⟩ := hcs x List.mem_cons_self
          have hh := Change.check_hdr _ _ hx
          unfold briefLines
          rw [hh]
          by_cases ht : x.hdr.typeName = "JarClassChange"
          · rw [if_pos ht]
            rw [hp] at ht
            obtain ⟨b, hb⟩ := class_type ht
            rw [hp, hb] at hx ⊢
            exact class_lines hx o s
          · rw [if_neg ht]
            have : isReported x = false := by simp [isReported, ht]
            rw [this]
            rfl

theorem jarReport_brief {E : JarEnv} {l r : Archive} {o : DiffOpts} {d : Change DiffOpts}
    (h : jarReportCheck E l r o = .ok d) (s : Change.ShowOpts) :
    ∃ c, (jarChange E l r).check = .ok c ∧ Brief o s c d := by
  obtain ⟨t, ht, -⟩ := jarTypeChange_check l r
  rw [jarChange_check E l r t ht]
  unfold jarReportCheck at h
  rw [ht] at h
  simp only at h
  cases hc : jarContentsChildren E l r with
  | error e => simp [hc] at h
  | ok cs =>
    simp only [hc] at h ⊢
    obtain ⟨h1, h2⟩ := reportAll_eq o cs false
    cases hr : Change.checkAll cs false with
    | error e => simp [h1 e hr] at h
    | ok p =>
      obtain ⟨cs', b⟩ := p
      obtain ⟨cs'', h3, h4, h5⟩ := h2 cs' b hr
      obtain ⟨evs, -, hperm⟩ := children_entries hc
      have hl := reportAll_lines E l r o s cs (fun x hx => by
        obtain ⟨p, -, hp⟩ := List.mem_map.1 (hperm.mem_iff.1 hx)
        exact ⟨p, hp.symm⟩) false cs' cs'' b b hr h3
      simp only [h3, Except.ok.injEq] at h
      refine ⟨_, rfl, ?_⟩
      have hall : Change.allIgnored o cs'' = Change.allIgnored o cs' := by
        clear h3 hr hl h2 h
        induction cs'' generalizing cs' with
        | nil =>
          cases cs' with
          | nil => rfl
          | cons y ys => simp at h5
        | cons x xs ih =>
          cases cs' with
          | nil => simp at h5
          | cons y ys =>
            simp only [List.map_cons, List.cons.injEq] at h4 h5
            simp only [Change.allIgnored, ih ys h4.2 h5.2, h5.1]
            have := h4.1
            unfold Change.exitStatus at this
            rw [h5.1] at this
            cases hy : y.isChange <;> rw [hy] at this
            · rfl
            · cases h6 : x.isIgnored o <;> cases h7 : y.isIgnored o <;> simp_all
      have hemp : cs''.isEmpty = cs'.isEmpty := by
        have := congrArg List.length h5
        simp only [List.length_map] at this
        cases cs'' <;> cases cs' <;> simp_all
      have hin : ∀ h h' : Hdr DiffOpts, h.kind = .plain → h'.kind = .plain → h.ign = .inherit → h'.ign = .inherit →
          h.describe = none → h'.describe = none → h.label = h'.label →
          (Change.super h none b none cs'').isChange = (Change.super h' none b none cs').isChange ∧
          (Change.super h none b none cs'').isIgnored o = (Change.super h' none b none cs').isIgnored o ∧
          (Change.super h none b none cs'').getDescription = (Change.super h' none b none cs').getDescription := by
        intro h h' k k' i i' g g' lab
        have : (Change.super h none b none cs'').isChange = (Change.super h' none b none cs').isChange := by
          simp only [Change.isChange, k, k']
        refine ⟨this, ?_, ?_⟩
        · simp only [Change.isIgnored, this, i, i', hemp, hall]
        · simp only [Change.getDescription, g, g', this, lab]
      obtain ⟨e1, e2, e3⟩ := hin { typeName := "JarContentsReport", label := "JAR Contents".toList }
        (jarContentsChange E l r).hdr rfl rfl rfl rfl rfl rfl rfl
      subst h
      have f1 : ∀ y x : Change DiffOpts, (Change.super { typeName := "JarReport", label := "JAR".toList } none
          (false || t.isChange || b) none [t, x]).isChange = (Change.super (jarChange E l r).hdr none
          (false || t.isChange || b) none [t, y]).isChange := fun _ _ => rfl
      have f2 : ∀ y x : Change DiffOpts, x.isChange = y.isChange → x.isIgnored o = y.isIgnored o →
          (Change.super { typeName := "JarReport", label := "JAR".toList } none
          (false || t.isChange || b) none [t, x]).isIgnored o = (Change.super (jarChange E l r).hdr none
          (false || t.isChange || b) none [t, y]).isIgnored o := by
        intro y x hx1 hx2
        simp only [Change.isIgnored, f1 y x, Change.allIgnored, hx1, hx2, jarChange, Change.hdr]
        rfl
      have f3 : ∀ y x : Change DiffOpts, (Change.super { typeName := "JarReport", label := "JAR".toList } none
          (false || t.isChange || b) none [t, x]).getDescription = (Change.super (jarChange E l r).hdr none
          (false || t.isChange || b) none [t, y]).getDescription := fun _ _ => rfl
      refine ⟨rfl, f2 _ _ e1 e2, _, _, _, _, t, cs', rfl, ?_⟩
      have g2 := f2 _ _ e1 e2
      generalize hX : Change.super { typeName := "JarContentsReport", label := "JAR Contents".toList } none b none cs'' = X at *
      generalize hY : Change.super (jarContentsChange E l r).hdr none b none cs' = Y at *
      have key : X.indentChange o s 1 = Y.indentChange o s 1 ∨
          ∃ H, Y.indentChange o s 1 = H ++ cs'.flatMap (fun y => y.indentChange o s 2) ∧
            X.indentChange o s 1 = H ++ cs'.flatMap (briefLines o s) := by
        have i1 : X.indentChange o s 1 = if X.isChange then
            if X.isIgnored o then if s.showIgnored then
              Change.indentLine 1 [X.getDescription, " [IGNORED]".toList] :: Change.indentAll o s 2 cs'' else []
            else Change.indentLine 1 [X.getDescription] :: Change.indentAll o s 2 cs''
          else if s.showUnchanged then Change.indentLine 1 [X.getDescription] :: Change.indentAll o s 2 cs'' else [] := by
          rw [← hX]; simp only [Change.indentChange]
        have i2 : Y.indentChange o s 1 = if Y.isChange then
            if Y.isIgnored o then if s.showIgnored then
              Change.indentLine 1 [Y.getDescription, " [IGNORED]".toList] :: Change.indentAll o s 2 cs' else []
            else Change.indentLine 1 [Y.getDescription] :: Change.indentAll o s 2 cs'
          else if s.showUnchanged then Change.indentLine 1 [Y.getDescription] :: Change.indentAll o s 2 cs' else [] := by
          rw [← hY]; simp only [Change.indentChange]
        rw [Change.indentAll_flatMap, hl] at i1
        rw [Change.indentAll_flatMap] at i2
        rw [i1, i2, e1, e2, e3]
        split
        · split
          · split
            · exact .inr ⟨[_], rfl, rfl⟩
            · exact .inl rfl
          · exact .inr ⟨[_], rfl, rfl⟩
        · split
          · exact .inr ⟨[_], rfl, rfl⟩
          · exact .inl rfl
      simp only [Change.indentChange, f1 Y X, g2, f3 Y X, Change.indentAll, List.append_nil]
      rcases key with hk | ⟨H, k1, k2⟩
      · exact .inl (by rw [hk])
      · rw [k1, k2]
        split
        · split
          · split
            · exact .inr ⟨_ :: (t.indentChange o s 1 ++ H), by rw [List.cons_append, List.append_assoc],
              by rw [List.cons_append, List.append_assoc]⟩
            · exact .inl rfl
          · exact .inr ⟨_ :: (t.indentChange o s 1 ++ H), by rw [List.cons_append, List.append_assoc],
              by rw [List.cons_append, List.append_assoc]⟩
        · split
          · exact .inr ⟨_ :: (t.indentChange o s 1 ++ H), by rw [List.cons_append, List.append_assoc],
              by rw [List.cons_append, List.append_assoc]⟩
          · exact .inl rfl

/-! ### Which classes -/

/-- The entries for which there are reports: the classes that differ, each once. -/
structure ReportedAre (E : JarEnv) (l r : Archive) (es : List Str) : Prop where
  nodup : es.Nodup
  mem : ∀ e, e ∈ es ↔ KindOf E.up e .cls ∧ ∃ evs, compareZips E.order l r = (evs, none) ∧ (.diff, e) ∈ evs

theorem reported_are {E : JarEnv} (hup : IsUpper E.up) (ho : IsSetOrder E.order) {l r : Archive}
    {cs : List (Change DiffOpts)} (h : jarContentsChildren E l r = .ok cs) : ReportedAre E l r (reportedEntries cs) := by
  obtain ⟨_, _, _, _, hn, _⟩ := reported_spec ho h
  obtain ⟨evs, he, hperm⟩ := children_entries h
  refine ⟨hn, fun e => ?_⟩
  have hmem : e ∈ reportedEntries cs ↔ ∃ p ∈ evs, isReported (jarEntryChange E l r p) = true ∧ p.2 = e := by
    unfold reportedEntries
    simp only [List.mem_filterMap, hperm.mem_iff, List.mem_map]
    constructor
    · rintro ⟨c, ⟨p, hp, rfl⟩, hc⟩
      split at hc
      · rename_i hr
        rw [jarEntryChange_entry E l r p.1 p.2] at hc
        exact ⟨p, hp, hr, Option.some.inj hc⟩
      · simp at hc
    · rintro ⟨p, hp, hr, rfl⟩
      exact ⟨_, ⟨p, hp, rfl⟩, by rw [if_pos hr]; exact jarEntryChange_entry E l r p.1 p.2⟩
  rw [hmem]
  constructor
  · rintro ⟨⟨ev, f⟩, hp, hr, rfl⟩
    obtain rfl := jarEntryChange_reported E l r ev f hr
    obtain ⟨k, hk, -⟩ := kindOf_unique E.up f
    refine ⟨?_, evs, he, hp⟩
    have ht : (jarEntryChange E l r (.diff, f)).hdr.typeName = "JarClassChange" := by
      simp only [isReported, Bool.and_eq_true, decide_eq_true_eq] at hr
      exact hr.1
    rw [jarEntryChange_eq E hup l r .diff f k hk] at ht
    cases k with
    | cls => exact hk
    | manifest => exact absurd (show "JarManifestChange" = "JarClassChange" from ht) (by decide)
    | sigfile => exact absurd (show "JarSignatureFileChange" = "JarClassChange" from ht) (by decide)
    | sigblock => exact absurd (show "JarSignatureBlockFileChange" = "JarClassChange" from ht) (by decide)
    | other => exact absurd (show "JarGenericFileChange" = "JarClassChange" from ht) (by decide)
  · rintro ⟨hk, evs', he', hp⟩
    rw [he] at he'
    obtain rfl := (Prod.mk.inj he').1
    refine ⟨_, hp, ?_, rfl⟩
    rw [jarEntryChange_eq E hup l r .diff e .cls hk]
    rfl

/-- C143, for two archive files: there are reports for the classes that are in both with different content. -/
theorem C143_which {E : JarEnv} (ho : IsSetOrder E.order) {l r : Archive} {es : List Str}
    (h : ReportedAre E l r es) (hl : l.closed = false) (hr : r.closed = false) (hcl : Consistent l)
    (hcr : Consistent r) (hzl : l.exploded = false) (hzr : r.exploded = false)
    (hne : ¬ ([] ∈ names l ∧ [] ∈ names r)) (e : Str) :
    e ∈ es ↔ KindOf E.up e .cls ∧ ∃ x y, HasContent l e x ∧ HasContent r e y ∧ x ≠ y := by
  obtain ⟨evs, g, h1, h2, _⟩ := C55_partial E.order l r ho hl hr hcl hcr hzl hzr hne
  rw [h.mem]
  refine and_congr_right fun hk => ?_
  constructor
  · rintro ⟨evs', h3, h4⟩
    rw [h1] at h3
    rw [← (Prod.mk.inj h3).1] at h4
    exact ((h2.diff e).1 h4).2
  · intro hd
    refine ⟨evs, h1, (h2.diff e).2 ⟨?_, hd⟩⟩
    obtain ⟨-, -, -, p, rfl⟩ := hk
    rintro ⟨q, hq⟩
    have := congrArg List.getLast? hq
    simp at this

section
variable (negNum : Str → Bool) {isInt : Str → Bool} (W : DiffWorld) (P : ReportEnv)

/-- C143: a run of jardiff with `--report`, as long as `--ignore` names no option for patterns, ends with the
exception that reading, comparing or writing raises. Else it has written a report in each format for each class that
differs, in a directory named after its entry, and then the report of the archives; what it prints and returns is
the comparison of the archives in brief. -/
theorem C143_run (hup : IsUpper W.E.up) (ho : IsSetOrder W.E.order) {ps : List ArgPiece} {a b : Str}
    (h : TwoFiles isInt .jardiff ps a b) (hc : Clean (piecesGiven ps)) (ha : Asked (piecesGiven ps)) :
    ∃ A dir F, DiffMeans (piecesGiven ps) A ∧ DirIs (piecesGiven ps) dir ∧ FormatsAre (piecesGiven ps) F ∧
    (∀ e, W.jar a = .error e →
      reportMain negNum isInt W P .jardiff (piecesWords ps) = ⟨[], none, .error e⟩) ∧
    (∀ l e, W.jar a = .ok l → W.jar b = .error e →
      reportMain negNum isInt W P .jardiff (piecesWords ps) = ⟨[], none, .error e⟩) ∧
    (∀ l r, W.jar a = .ok l → W.jar b = .ok r →
      (∃ e, ((jarChange W.E.toJarEnv l r).check = .error e ∨ Fault P e) ∧
        (reportMain negNum isInt W P .jardiff (piecesWords ps)).run = ⟨none, .error e⟩) ∨
      (∃ c d es w w', (jarChange W.E.toJarEnv l r).check = .ok c ∧ Brief A.opts A.shows c d ∧
        ReportedAre W.E.toJarEnv l r es ∧
        (reportMain negNum isInt W P .jardiff (piecesWords ps)).files = w ++ w' ∧
        ClassReports P A.opts A.shows W.E.toJarEnv l r dir F es w ∧
        ReportOf P A.opts A.shows dir "JarReport" F d w' ∧
        RunIs W A A.opts d (reportMain negNum isInt W P .jardiff (piecesWords ps)).run)) := by
  obtain ⟨evs, h1, h2, h3, h5, h4⟩ := report_namespace negNum h
  rcases h4 with ⟨h4, -⟩ | ⟨-, ns, h4, hn⟩
  · exact absurd h4 hc.noConflict
  have hne := (asked_iff _).2 ha
  have hmain : reportMain negNum isInt W P .jardiff (piecesWords ps) =
      reportCli W P .jardiff ns (orHere (reportDir evs)) (reportNames evs) a b := by
    unfold reportMain
    rw [h1]
    simp only [h4, h2]
    rw [if_neg (by rw [h3]; exact hne)]
  rw [h5, h3] at hmain
  obtain ⟨hd1, hd2⟩ := @orHere_is (piecesGiven ps)
  obtain ⟨F, hF, hFn, hFe⟩ := fresh_new hd2 "JarReport"
    ((valuesOf (piecesGiven ps) (spec .value ["--report"])).foldl optReport [])
  have hFs := C110_formats (orHere (valuesOf (piecesGiven ps) (spec .value ["--report-dir"])).getLast?)
    "JarReport".toList (valuesOf (piecesGiven ps) (spec .value ["--report"]))
  simp only [← hFe] at hFs
  refine ⟨ns.args, _, F, hn.means ?_, hd1, ⟨hFn, hFs.2⟩, ?_, ?_, ?_⟩
  · rintro x hx ⟨g, hg, he⟩
    exact absurd he (hc g hg x hx)
  · intro e he
    rw [hmain]
    simp only [reportCli, he]
    rfl
  · intro l e hl he
    rw [hmain]
    simp only [reportCli, hl, he]
    rfl
  · intro l r hl hr
    rw [hmain]
    simp only [reportCli, hl, hr]
    rcases jarReport_or P hF hFn ns.opts ns.show W.E.toJarEnv l r with
      ⟨d, cs, w, w', q1, q2, q3, q4, q5⟩ | ⟨e, q1, q2⟩
    · obtain ⟨c, q6, q7⟩ := jarReport_brief q1 ns.show
      rw [q3]
      exact .inr ⟨c, d, _, w, w', q6, q7, reported_are hup ho q2, rfl, q4, q5, finish_is W ns ns.opts d⟩
    · refine .inl ⟨e, q2, ?_⟩
      generalize jarReportRun P ns.show _ W.E.toJarEnv ns.opts l r = out at q1
      obtain ⟨w, y⟩ := out
      simp only at q1
      subst q1
      rfl

/-- C143: the exit status with reports is the one without. -/
theorem C143_status (other : List ArgEvent → DiffRun) (hup : IsUpper W.E.up) (ho : IsSetOrder W.E.order)
    {ps ps' : List ArgPiece} {a b : Str}
    (h : TwoFiles isInt .jardiff ps a b) (hc : Clean (piecesGiven ps)) (h' : Compares isInt .jardiff ps' a b)
    (hc' : Clean (piecesGiven ps')) {A : DiffArgs}
    (hA : DiffMeans (piecesGiven ps) A) (hA' : DiffMeans (piecesGiven ps') A)
    (ha : Asked (piecesGiven ps)) (hf : ∀ e, ¬ Fault P e)
    (hd : ∀ name, A.dest = some name → W.cannotOpen name = none) :
    (reportMain negNum isInt W P .jardiff (piecesWords ps)).run.status =
      (diffMain negNum isInt W other .jardiff (piecesWords ps')).status := by
  obtain ⟨B, dir, F, hB, -, -, h1, h2, h3⟩ := C143_run negNum W P hup ho h hc ha
  obtain ⟨h4, h5⟩ := C141_partial negNum W other (t := .jardiff) (by simp) h' hc' hA'
  have hde : deltaOf W .jardiff A.shallow a b =
      (W.jar a).bind fun l => (W.jar b).bind fun r => .ok (jarChange W.E.toJarEnv l r) := rfl
  rw [hde] at h4 h5
  cases hl : W.jar a with
  | error e => rw [h1 e hl, h4 e (by rw [hl]; rfl)]
  | ok l =>
    cases hr : W.jar b with
    | error e => rw [h2 l e hl hr, h4 e (by rw [hl]; simp only [Except.bind, hr])]
    | ok r =>
      rcases h3 l r hl hr with ⟨e, q1, q2⟩ | ⟨c, d, es, w, w', q1, q2, -, -, -, -, q3⟩
      · rcases q1 with q1 | q1
        · rw [q2, h4 e (by rw [hl]; simp only [Except.bind, hr, q1])]
        · exact absurd q1 (hf e)
      · have hdd : A.dest = B.dest := Option.ext fun name => by rw [hA.dest, hB.dest]
        have hq := h5 c (by rw [hl]; simp only [Except.bind, hr, q1])
        rw [q3.status (by rw [← hdd]; exact hd), hq.status hd]
        have hso : SameOpts A.opts B.opts := by
          refine ⟨fun name => Bool.eq_iff_iff.2 ((hA.flags name).trans (hB.flags name).symm), ?_, ?_, ?_⟩
          · rw [hA.keys, hB.keys]
          · rw [hA.entries, hB.entries]
          · rw [hA.files, hB.files]
        have hresp : Change.Resp SameOpts c := Change.check_resp _ (jar_resp ..) q1
        rw [Change.exitStatus_resp hso hresp]
        unfold Change.exitStatus
        rw [q2.1, q2.2.1]

end

/-! ## Examples -/

/-- Nothing can be written below `no`, and a page is the name of the class. -/
def demoReports : ReportEnv :=
  { cwd := "/w".toList,
    cannotWrite := fun t => match t with
      | .file f => if "no/".toList.isPrefixOf f then some (.other "OSError") else none
      | .stdout => none,
    html := fun _ _ c => .ok c.hdr.typeName.toList }

/-- The world with two archives that have a class each. -/
def demoWorld2 : DiffWorld :=
  { demoWorld with jar := fun n => .ok (slipJar "X.class".toList (if n = "a".toList then 1 else 0)) }

/-- What the reports are, with the text. -/
def ReportRun.seen (r : ReportRun) : List (Target × Option Str) × Option (Option Str × Option Str) × Res Nat :=
  (r.files.map fun f => (f.1, match f.2 with | .text s => some s | .json _ => none | .html s => some s), r.run.seen)

def demoReport (t : DiffTool) (words : List String) : ReportRun :=
  reportMain (fun _ => false) (fun _ => false) demoWorld2 demoReports t (words.map String.toList)

set_option synthInstance.maxSize 1000

example : (demoReport .classdiff ["-q", "a", "b", "--report", "html,json", "--report-dir=out"]).seen =
      ([(.file "out/JavaClassReport.html".toList, some "JavaClassReport".toList),
        (.file "out/JavaClassReport.json".toList, none)], none, .ok 1) ∧
    (demoReport .classdiff ["-q", "a", "b", "--report", "json", "--report-dir=no"]).seen =
      ([], none, .error (.other "OSError")) ∧
    (demoReport .classdiff ["-q", "a", "b", "--report", ",,", "--report-dir=no"]).seen = ([], none, .ok 1) := by
  decide +kernel

example : (demoReport .jardiff ["-q", "a", "b", "--report", "html,json"]).seen =
      ([(.file "./X.class/JavaClassReport.html".toList, some "JavaClassReport".toList),
        (.file "./X.class/JavaClassReport.json".toList, none),
        (.file "./JarReport.html".toList, some "JarReport".toList),
        (.file "./JarReport.json".toList, none)], none, .ok 1) := by
  decide +kernel

end Javatools
