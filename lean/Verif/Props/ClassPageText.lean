import Verif.Props.ClassPage
import Verif.Props.CodeListing
import Verif.Props.Declaration
import Verif.Props.ClassDiff
/-
The page of two classes: the texts that are put into it unescaped have no `<`, if the names and the
annotations of the classes have none.
-/
namespace Javatools
open Spec

/-- The annotations have no `<` in their texts. -/
def PlainAnnos (E : PrintEnv) (pool : Pool) (attribs : Attribs) : Prop :=
  ∀ attr ∈ ["RuntimeVisibleAnnotations", "RuntimeInvisibleAnnotations"], ∀ xs,
    getAnnotations attribs pool E.lim E.depth attr = .ok xs →
    ∀ a ∈ xs, ∀ t, annoText E pool a = .ok t → '<' ∉ t

/-- The names of classes that the class and its methods mention have no `<`, nor have the texts of
the annotations. -/
structure PlainTexts (E : PrintEnv) (c : ClassInfo) : Prop where
  this : ∀ n, c.getThis E.lim = .ok (.str n) → '<' ∉ n
  super : ∀ n, c.getSuper E.lim = .ok (.str n) → '<' ∉ n
  interfaces : ∀ vs n, c.getInterfaces E.lim = .ok vs → .str n ∈ vs → '<' ∉ n
  exceptions : ∀ m ∈ c.methods, ∀ vs n, m.getExceptions c.pool E.lim = .ok vs → .str n ∈ vs → '<' ∉ n
  annos : PlainAnnos E c.pool c.attribs
  fieldAnnos : ∀ m ∈ c.fields, PlainAnnos E c.pool m.attribs
  methodAnnos : ∀ m ∈ c.methods, PlainAnnos E c.pool m.attribs

/-! ### Texts -/

/-- The text, if there is one, has no `<`. -/
def CleanRes (x : Res Str) : Prop := ∀ s, x = .ok s → '<' ∉ s

def NoTagSub (x : Res Sub) : Prop := ∀ s, x = .ok s → '<' ∉ s.left ∧ '<' ∉ s.right

theorem CleanRes.ok {s : Str} (h : '<' ∉ s) : CleanRes (.ok s) := fun t e => by
  simp only [Except.ok.injEq] at e
  exact e ▸ h

theorem CleanRes.map {α : Type} {x : Res α} {f : α → Str} (h : ∀ a, x = .ok a → '<' ∉ f a) :
    CleanRes (x.map f) := by
  cases x with
  | error e => intro s hs; simp [Except.map] at hs
  | ok a =>
    intro s hs
    simp only [Except.map, Except.ok.injEq] at hs
    exact hs ▸ h a rfl

theorem askSub_clean {b : Bool} {shows : Res Bool} {left right : Res Str} (hl : CleanRes left)
    (hr : CleanRes right) : NoTagSub (askSub b shows left right) := by
  intro s h
  unfold askSub at h
  split at h
  · split at h
    · simp at h
    · split at h
      · simp at h
      · simp only [Except.ok.injEq] at h
        subst h
        exact ⟨hl _ rfl, hr _ rfl⟩
  · split at h
    · simp at h
    · simp only [Except.ok.injEq] at h
      subst h
      simp
    · split at h
      · simp at h
      · simp only [Except.ok.injEq] at h
        subst h
        exact ⟨hl _ rfl, by simp⟩

theorem askChild_clean {kids : List (Change Opts)} {name : String} {shows : Res Bool} {left right : Res Str}
    (hl : CleanRes left) (hr : CleanRes right) : NoTagSub (askChild kids name shows left right) := by
  unfold askChild
  split
  · intro s h; simp at h
  · exact askSub_clean hl hr

theorem askSubs_get : ∀ {rs : List (Res Sub)} {ss : List Sub}, askSubs rs = .ok ss → ∀ {i : Nat} {s : Sub},
    ss[i]? = some s → rs[i]? = some (.ok s) := by
  intro rs
  induction rs with
  | nil => intro ss h i s hs; simp only [askSubs, Except.ok.injEq] at h; subst h; simp at hs
  | cons r rs ih =>
    intro ss h i s hs
    cases r with
    | error e => simp [askSubs] at h
    | ok x =>
      rw [askSubs] at h
      split at h
      · simp at h
      · rename_i xs hx
        simp only [Except.ok.injEq] at h
        subst h
        cases i with
        | zero => simp only [List.getElem?_cons_zero, Option.some.injEq] at hs ⊢; rw [hs]
        | succ i => rw [List.getElem?_cons_succ] at hs ⊢; exact ih hx hs

theorem rawAt_clean {rs : List (Res Sub)} {ss : List Sub} {idx : List Nat} (h : askSubs rs = .ok ss)
    (hc : ∀ i ∈ idx, ∀ x, rs[i]? = some x → NoTagSub x) : ∀ t ∈ rawAt idx ss, '<' ∉ t := by
  intro t ht
  unfold rawAt at ht
  obtain ⟨i, hi, ht⟩ := List.mem_flatMap.1 ht
  split at ht
  · rename_i s hs
    have := hc i hi _ (askSubs_get h hs) s rfl
    simp only [List.mem_cons, List.not_mem_nil, or_false] at ht
    rcases ht with rfl | rfl
    · exact this.1
    · exact this.2
  · simp at ht

theorem join_clean {sep : Str} {ts : List Str} (hs : '<' ∉ sep) (h : ∀ t ∈ ts, '<' ∉ t) :
    '<' ∉ joinWith sep ts := by
  intro hm
  rcases mem_joinWith hm with h1 | ⟨x, hx, h2⟩
  · exact hs h1
  · exact h x hx h2

theorem prettyClass_clean {s : Str} (h : '<' ∉ s) : '<' ∉ prettyClass s := by
  intro hm
  obtain ⟨c, hc, e⟩ := List.mem_map.1 hm
  split at e
  · revert e; decide
  · exact h (e ▸ hc)

theorem classTexts_clean : ∀ {vs : List PVal} {ts : List Str}, classTexts vs = .ok ts →
    (∀ n, .str n ∈ vs → '<' ∉ n) → ∀ t ∈ ts, '<' ∉ t := by
  intro vs
  induction vs with
  | nil => intro ts h _ t ht; simp only [classTexts, Except.ok.injEq] at h; subst h; simp at ht
  | cons v vs ih =>
    intro ts h hn t ht
    rw [classTexts] at h
    split at h
    · simp at h
    · rename_i s hs
      split at h
      · simp at h
      · rename_i us hu
        simp only [Except.ok.injEq] at h
        subst h
        rcases List.mem_cons.1 ht with rfl | ht
        · refine prettyClass_clean (hn s ?_)
          cases v <;> simp [PVal.asStr] at hs
          subst hs
          simp
        · exact ih hu (fun n h => hn n (by simp [h])) t ht

theorem commaJoin_clean {ts : List Str} (h : ∀ t ∈ ts, '<' ∉ t) : '<' ∉ commaJoin ts :=
  join_clean (by decide) h

theorem commaJoinOr_clean {ts : List Str} (h : ∀ t ∈ ts, '<' ∉ t) : '<' ∉ commaJoinOr ts := by
  unfold commaJoinOr
  split
  · decide
  · exact commaJoin_clean h

theorem inParens_clean {ts : List Str} (h : ∀ t ∈ ts, '<' ∉ t) : '<' ∉ inParens ts := by
  unfold inParens
  simp only [List.mem_append, not_or]
  exact ⟨⟨by decide, commaJoin_clean h⟩, by decide⟩

theorem hexN_clean (k n : Nat) : '<' ∉ Change.hexN k n := by
  induction k generalizing n with
  | zero => simp [Change.hexN]
  | succ k ih =>
    rw [Change.hexN, List.mem_append, not_or]
    refine ⟨ih _, ?_⟩
    have : ∀ m, m < 16 → '<' ≠ Change.hexDigit m := by decide
    simpa using this (n % 16) (Nat.mod_lt _ (by decide))

theorem flagsText_clean {a : Nat} {ws : List String} (h : ∀ w ∈ ws, '<' ∉ w.toList) : '<' ∉ flagsText a ws := by
  unfold flagsText keywords
  simp only [List.mem_append, not_or]
  refine ⟨⟨⟨by decide, hexN_clean _ _⟩, by decide⟩, join_clean (by decide) ?_⟩
  intro t ht
  obtain ⟨w, hw, rfl⟩ := List.mem_map.1 ht
  exact h w hw

theorem ite_word {b : Bool} {w : String} (h : '<' ∉ w.toList) : ∀ x ∈ (if b then [w] else []), '<' ∉ x.toList := by
  intro x hx
  cases b <;> simp at hx
  exact hx ▸ h

theorem classFlags_clean (c : ClassInfo) : ∀ w ∈ c.prettyAccessFlags, '<' ∉ w.toList := by
  rw [C15_class_keywords]
  intro w hw
  obtain ⟨p, hp, rfl⟩ := List.mem_map.1 hw
  have := (List.mem_filter.1 hp).1
  simp only [List.mem_cons, List.not_mem_nil, or_false] at this
  rcases this with rfl | rfl | rfl | rfl | rfl | rfl <;> (dsimp only; decide)

theorem memberFlags_clean (m : Member) : ∀ w ∈ m.prettyAccessFlags false, '<' ∉ w.toList := by
  unfold Member.prettyAccessFlags
  simp only [Bool.false_and, Bool.false_eq_true, if_false, List.append_nil]
  have ap : ∀ {xs ys : List String}, (∀ w ∈ xs, '<' ∉ w.toList) → (∀ w ∈ ys, '<' ∉ w.toList) →
      ∀ w ∈ xs ++ ys, '<' ∉ w.toList := by
    intro xs ys h1 h2 w hw
    rcases List.mem_append.1 hw with h | h
    · exact h1 w h
    · exact h2 w h
  refine ap (ap (ap (ap (ap (ap (ap (ap (ap (ap (ite_word ?_) (ite_word ?_)) (ite_word ?_)) (ite_word ?_))
    (ite_word ?_)) (ite_word ?_)) (ite_word ?_)) (ite_word ?_)) (ite_word ?_)) (ite_word ?_)) ?_
  all_goals try decide
  split
  · exact ite_word (by decide)
  · exact ap (ite_word (by decide)) (ite_word (by decide))

theorem versionText_clean (c : ClassInfo) : '<' ∉ versionText c := by
  unfold versionText
  simp only [List.mem_append, not_or]
  exact ⟨⟨⟨by decide, natText_not_mem _ (by decide)⟩, by decide⟩, natText_not_mem _ (by decide)⟩

theorem platformText_clean (c : ClassInfo) : '<' ∉ platformText c := by
  unfold platformText platformFromVersion
  cases h : platforms.find? (inRow (c.version.1, c.version.2)) with
  | none => simp
  | some row =>
    have : ∀ row ∈ platforms, '<' ∉ row.2.2.toList := by decide
    exact this row (List.mem_of_find?_eq_some h)

theorem pyBoolText_clean (b : Bool) : '<' ∉ pyBoolText b := by cases b <;> decide

theorem java_clean {t : JType} (h : t.Names JavaClassName) : '<' ∉ t.java := by
  induction t with
  | prim p => cases p <;> decide
  | cls n => exact prettyClass_clean (JavaClassName.not_mem h (by decide) (by decide))
  | arr t ih =>
    simp only [JType.java, List.mem_append, not_or]
    exact ⟨ih h, by decide⟩

theorem method_types {p : Pool} {lim : Nat} {m : Member} {n : Str} {args : List JType} {ret : Option JType}
    (h : IsMethod p lim m n args ret) : m.prettyArgTypes p lim = .ok (args.map JType.java) ∧
      m.prettyType p lim = .ok (retJava ret) := by
  obtain ⟨_, _, h3, h4⟩ := C23_method_accessors m p lim args ret h.kind h.desc
    (fun t ht => Names.imp (fun n hn => ⟨JavaClassName.not_mem hn (by decide) (by decide),
      JavaClassName.not_mem hn (by decide) (by decide)⟩) (h.types.1 t ht))
    (fun t ht => Names.imp (fun n hn => JavaClassName.not_mem hn (by decide) (by decide)) (h.types.2 t ht))
  exact ⟨h3, h4⟩

theorem field_type {p : Pool} {lim : Nat} {m : Member} {n : Str} {t : JType} (h : IsField p lim m n t) :
    m.prettyType p lim = .ok t.java :=
  (C23_field_accessors m p lim t h.kind h.desc
    (Names.imp (fun n hn => JavaClassName.not_mem hn (by decide) (by decide)) h.types)).2.2.2

theorem retJava_clean {args : List JType} {ret : Option JType} (h : JavaTypes args ret) : '<' ∉ retJava ret := by
  cases ret with
  | none => decide
  | some t => exact java_clean (h.2 t rfl)

/-! ### Annotations, constants, code -/

theorem singleAnnos_clean {E : PrintEnv} {pool : Pool} : ∀ {xs : List AVal} {i : Nat} {rows : List (Nat × Str)},
    singleAnnotations E pool i xs = .ok rows → (∀ a ∈ xs, ∀ t, annoText E pool a = .ok t → '<' ∉ t) →
    ∀ p ∈ rows, '<' ∉ p.2 := by
  intro xs
  induction xs with
  | nil => intro i rows h _ p hp; simp only [singleAnnotations, Except.ok.injEq] at h; subst h; simp at hp
  | cons a as ih =>
    intro i rows h hc p hp
    rw [singleAnnotations] at h
    split at h
    · simp at h
    · rename_i t ht
      split at h
      · simp at h
      · rename_i rs hr
        simp only [Except.ok.injEq] at h
        subst h
        rcases List.mem_cons.1 hp with rfl | hp
        · exact hc a (by simp) t ht
        · exact ih hr (fun b hb => hc b (by simp [hb])) p hp

theorem dualCell_clean {E : PrintEnv} {pool : Pool} {a : Option AVal}
    (h : ∀ x, a = some x → ∀ t, annoText E pool x = .ok t → '<' ∉ t) : CleanRes (dualAnnoCell E pool a) := by
  intro t ht
  unfold dualAnnoCell at ht
  split at ht
  · simp only [Except.ok.injEq] at ht; subst ht; simp
  · simp only [Except.ok.injEq] at ht; subst ht; simp
  · exact h _ rfl t ht

theorem dualAnnos_clean {E : PrintEnv} {lp rp : Pool} : ∀ {ps : List (Option AVal × Option AVal)} {i : Nat}
    {rows : List AnnoRow}, dualAnnoRows E lp rp i ps = .ok rows →
    (∀ x ∈ ps, ∀ a, x.1 = some a → ∀ t, annoText E lp a = .ok t → '<' ∉ t) →
    (∀ x ∈ ps, ∀ a, x.2 = some a → ∀ t, annoText E rp a = .ok t → '<' ∉ t) →
    ∀ p ∈ rows, '<' ∉ p.left ∧ '<' ∉ p.right := by
  intro ps
  induction ps with
  | nil => intro i rows h _ _ p hp; simp only [dualAnnoRows, Except.ok.injEq] at h; subst h; simp at hp
  | cons x ps ih =>
    obtain ⟨a, b⟩ := x
    intro i rows h hl hr p hp
    rw [dualAnnoRows] at h
    split at h
    · simp at h
    · rename_i t ht
      split at h
      · simp at h
      · split at h
        · simp at h
        · rename_i u hu
          split at h
          · simp at h
          · rename_i rs hrs
            simp only [Except.ok.injEq] at h
            subst h
            rcases List.mem_cons.1 hp with rfl | hp
            · exact ⟨dualCell_clean (hl (a, b) (by simp)) t ht, dualCell_clean (hr (a, b) (by simp)) u hu⟩
            · exact ih hrs (fun y hy => hl y (by simp [hy])) (fun y hy => hr y (by simp [hy])) p hp

theorem mem_zipPairs {β γ : Type} : ∀ {xs : List β} {ys : List γ} {p : Option β × Option γ}, p ∈ zipPairs xs ys →
    (∀ x, p.1 = some x → x ∈ xs) ∧ (∀ y, p.2 = some y → y ∈ ys) := by
  intro xs
  induction xs with
  | nil =>
    intro ys p h
    rw [zipPairs] at h
    obtain ⟨y, hy, rfl⟩ := List.mem_map.1 h
    simp [hy]
  | cons x xs ih =>
    intro ys p h
    cases ys with
    | nil =>
      rw [zipPairs] at h
      rcases List.mem_cons.1 h with rfl | h
      · simp
      · obtain ⟨y, hy, rfl⟩ := List.mem_map.1 h
        simp [hy]
    | cons y ys =>
      rw [zipPairs] at h
      rcases List.mem_cons.1 h with rfl | h
      · simp
      · have := ih h
        exact ⟨fun x h => List.mem_cons_of_mem _ (this.1 x h), fun x h => List.mem_cons_of_mem _ (this.2 x h)⟩

theorem annoView_clean {E : ClassPageEnv} {o : Opts} {lp rp : Pool} {la ra : Attribs} {attr : String}
    {c : Change Opts} {v : AnnoView} (h : annoViewOf E o lp rp la ra attr c = .ok v)
    (ha : attr ∈ ["RuntimeVisibleAnnotations", "RuntimeInvisibleAnnotations"])
    (hl : PlainAnnos E.print lp la) (hr : PlainAnnos E.print rp ra) : ∀ t ∈ v.raws, '<' ∉ t := by
  unfold annoViewOf at h
  simp only at h
  split at h
  · simp at h
  · rename_i xs hx
    split at h
    · split at h
      · simp at h
      · rename_i ys hy
        split at h
        · simp at h
        · rename_i rows hrows
          simp only [Except.ok.injEq] at h
          subst h
          intro t ht
          obtain ⟨p, hp, ht⟩ := List.mem_flatMap.1 ht
          have := dualAnnos_clean hrows (fun q hq a ha' => hl attr ha xs hx a ((mem_zipPairs hq).1 a ha'))
            (fun q hq a ha' => hr attr ha ys hy a ((mem_zipPairs hq).2 a ha')) p hp
          simp only [List.mem_cons, List.not_mem_nil, or_false] at ht
          rcases ht with rfl | rfl
          · exact this.1
          · exact this.2
    · split at h
      · simp at h
      · rename_i rows hrows
        simp only [Except.ok.injEq] at h
        subst h
        intro t ht
        obtain ⟨p, hp, ht⟩ := List.mem_flatMap.1 ht
        obtain ⟨q, hq, rfl⟩ := List.mem_map.1 hp
        have := singleAnnos_clean hrows (hl attr ha xs hx) q hq
        simp only [List.mem_cons, List.not_mem_nil, or_false] at ht
        rcases ht with rfl | rfl
        · exact this
        · simp

theorem constText_clean {E : PrintEnv} {c : Const} {p : Str × Str} (h : constText E c = .ok p) : '<' ∉ p.1 := by
  cases c <;> simp only [constText, Except.ok.injEq, reduceCtorEq] at h <;> subst h <;> dsimp only <;> decide

theorem poolTexts_clean {E : PrintEnv} : ∀ {pool : Pool} {i : Nat} {rows : List (Nat × Str × Str)},
    poolTexts E i pool = .ok rows → ∀ x ∈ rows, '<' ∉ x.2.1 := by
  intro pool
  induction pool with
  | nil => intro i rows h x hx; simp only [poolTexts, Except.ok.injEq] at h; subst h; simp at hx
  | cons c cs ih =>
    intro i rows h x hx
    cases c with
    | none => rw [poolTexts] at h; exact ih h x hx
    | some c =>
      rw [poolTexts] at h
      split at h
      · simp at h
      · rename_i p hp
        split at h
        · simp at h
        · rename_i ps hps
          simp only [Except.ok.injEq] at h
          subst h
          rcases List.mem_cons.1 hx with rfl | hx
          · exact constText_clean hp
          · exact ih hps x hx

theorem plainCell_clean {E : ClassPageEnv} {c : PrettyCell} {p : Str × Str} (h : plainConstCell E c = .ok p) :
    '<' ∉ p.1 := by
  unfold plainConstCell at h
  split at h
  · simp only [Except.ok.injEq] at h; subst h; simp
  · split at h
    · simp at h
    · rename_i t v ht
      simp only [Except.ok.injEq] at h
      subst h
      have := constText_clean ht
      exact this

theorem plainRow_clean {E : ClassPageEnv} {x : Nat × PrettyCell × PrettyCell} {r : PoolRow}
    (h : plainConstRow E x = .ok r) : '<' ∉ r.left.1 ∧ ∀ q, r.right = some q → '<' ∉ q.1 := by
  unfold plainConstRow at h
  split at h
  · simp at h
  · simp at h
  · split at h
    · simp at h
    · rename_i left hl
      split at h
      · simp only [Except.ok.injEq] at h
        subst h
        exact ⟨plainCell_clean hl, by simp⟩
      · split at h
        · simp at h
        · rename_i right hr
          simp only [Except.ok.injEq] at h
          subst h
          refine ⟨plainCell_clean hl, ?_⟩
          intro q hq
          simp only [Option.some.injEq] at hq
          exact hq ▸ plainCell_clean hr

theorem mapM_each {α β : Type} {f : α → Res β} : ∀ {xs : List α} {ys : List β}, xs.mapM f = .ok ys →
    ∀ y ∈ ys, ∃ x ∈ xs, f x = .ok y := by
  intro xs
  induction xs with
  | nil => intro ys h y hy; simp [List.mapM_nil, pure, Except.pure] at h; subst h; simp at hy
  | cons x xs ih =>
    intro ys h y hy
    rw [List.mapM_cons] at h
    obtain ⟨a, ha, h⟩ := except_bind_ok h
    obtain ⟨as, has, h⟩ := except_bind_ok h
    simp only [pure, Except.pure, Except.ok.injEq] at h
    subst h
    rcases List.mem_cons.1 hy with rfl | hy
    · exact ⟨x, by simp, ha⟩
    · obtain ⟨z, hz, e⟩ := ih has y hy
      exact ⟨z, by simp [hz], e⟩

theorem poolView_clean {E : ClassPageEnv} {o : Opts} {l r : Pool} {c : Change Opts} {v : PoolView}
    (h : poolViewOf E o l r c = .ok v) : ∀ t ∈ v.raws, '<' ∉ t := by
  unfold poolViewOf at h
  split at h
  · split at h
    · simp at h
    · split at h
      · simp at h
      · rename_i rs hrs
        simp only [Except.ok.injEq] at h
        subst h
        intro t ht
        obtain ⟨p, hp, ht⟩ := List.mem_flatMap.1 ht
        obtain ⟨x, _, hx⟩ := mapM_each hrs p hp
        have := plainRow_clean hx
        rcases List.mem_cons.1 ht with rfl | ht
        · exact this.1
        · split at ht
          · rename_i q hq
            simp only [List.mem_cons, List.not_mem_nil, or_false] at ht
            exact ht ▸ this.2 q hq
          · simp at ht
  · split at h
    · simp at h
    · rename_i rows hrows
      simp only [Except.ok.injEq] at h
      subst h
      intro t ht
      obtain ⟨p, hp, ht⟩ := List.mem_flatMap.1 ht
      obtain ⟨q, hq, rfl⟩ := List.mem_map.1 hp
      simp only [List.mem_cons, List.not_mem_nil, or_false] at ht
      exact ht ▸ poolTexts_clean hrows q hq

theorem opname_clean {code : Nat} {n : Str} (h : getOpnameByCode code = .ok n) : '<' ∉ n := by
  have : ∀ d ∈ opDefs, '<' ∉ d.name := by decide +kernel
  obtain ⟨d, hd, _, rfl⟩ := column (f := OpDef.name) h
  exact this d hd

theorem intText_clean (v : Int) : '<' ∉ intText v := intText_not_mem v (by decide) (by decide)

theorem argsText_clean (a : Args) : '<' ∉ argsText a := by
  have hm : ∀ {α : Type} {f : α → Str} {xs : List α}, (∀ x, '<' ∉ f x) → '<' ∉ joinWith ", ".toList (xs.map f) := by
    intro α f xs h
    refine join_clean (by decide) ?_
    intro t ht
    obtain ⟨x, _, rfl⟩ := List.mem_map.1 ht
    exact h x
  have ap : ∀ {x y : Str}, '<' ∉ x → '<' ∉ y → '<' ∉ x ++ y := by
    intro x y h1 h2 h
    rcases List.mem_append.1 h with h | h
    · exact h1 h
    · exact h2 h
  cases a with
  | ints vs => exact hm intText_clean
  | lookup d ps =>
    refine join_clean (by decide) ?_
    intro t ht
    simp only [List.mem_cons, List.not_mem_nil, or_false] at ht
    rcases ht with rfl | rfl
    · exact intText_clean d
    · exact ap (ap (by decide) (hm fun p => ap (ap (ap (ap (by decide) (intText_clean _)) (by decide)) (intText_clean _))
        (by decide))) (by decide)
  | table d lo hi js =>
    refine join_clean (by decide) ?_
    intro t ht
    simp only [List.mem_cons, List.not_mem_nil, or_false] at ht
    rcases ht with rfl | rfl | rfl | rfl
    · exact intText_clean d
    · exact intText_clean lo
    · exact intText_clean hi
    · exact ap (ap (by decide) (hm fun p => ap (ap (by decide) (intText_clean _)) (by decide))) (by decide)

/-- No cell has a `<`. -/
def CleanCells (cs : List Cell) : Prop := ∀ c ∈ cs, '<' ∉ c.text

theorem CleanCells.append {a b : List Cell} (h1 : CleanCells a) (h2 : CleanCells b) : CleanCells (a ++ b) := by
  intro c hc
  rcases List.mem_append.1 hc with h | h
  · exact h1 c h
  · exact h2 c h

theorem CleanCells.one {i j : Nat} {t : Str} (h : '<' ∉ t) : CleanCells [⟨i, j, t⟩] := by
  intro c hc
  simp only [List.mem_cons, List.not_mem_nil, or_false] at hc
  exact hc ▸ h

theorem CleanCells.nil : CleanCells [] := by intro c hc; simp at hc

theorem argCell_clean {i : Insn} : CleanRes (argCell i) := by
  intro s h
  unfold argCell at h
  split at h
  · simp at h
  · simp only [Except.ok.injEq] at h; exact h ▸ argsText_clean _
  · split at h
    · simp at h
    · rename_i t ht
      simp only [Except.ok.injEq] at h
      subst h
      have : '<' ∉ t := by
        unfold firstArg at ht
        split at ht <;> simp only [Except.ok.injEq, reduceCtorEq] at ht <;> exact ht ▸ intText_clean _
      simpa using this

theorem insnCells_clean {i : Insn} {cs : List Cell} (h : insnCells i = .ok cs) : CleanCells cs := by
  unfold insnCells at h
  split at h
  · simp at h
  · rename_i n hn
    split at h
    · simp at h
    · rename_i a ha
      simp only [Except.ok.injEq] at h
      subst h
      exact (CleanCells.one (natText_not_mem _ (by decide))).append
        ((CleanCells.one (opname_clean hn)).append (.one (argCell_clean a ha)))

theorem sideCells_clean {n k : Nat} {s : MergeSide} {f b : Bool} {x : Option Insn} {cs : List Cell} {b' : Bool}
    (h : sideCells n k s f b x = .ok (cs, b')) : CleanCells cs := by
  unfold sideCells at h
  split at h
  · split at h
    · split at h
      · simp at h
      · rename_i t ht
        split at h
        · simp at h
        · rename_i ds hd
          simp only [Except.ok.injEq, Prod.mk.injEq] at h
          rw [← h.1]
          refine (CleanCells.one (i := 1) (j := n) (?_ : '<' ∉ t)).append (insnCells_clean hd)
          unfold sideLine at ht
          split at ht <;> simp only [Except.ok.injEq, reduceCtorEq] at ht
          exact ht ▸ natText_not_mem _ (by decide)
    · split at h
      · simp at h
      · rename_i ds hd
        simp only [Except.ok.injEq, Prod.mk.injEq] at h
        rw [← h.1]
        exact insnCells_clean hd
  · split at h
    · simp only [Except.ok.injEq, Prod.mk.injEq] at h; rw [← h.1]; exact .nil
    · split at h <;> (simp only [Except.ok.injEq, Prod.mk.injEq] at h; rw [← h.1]; exact .one (by simp))

theorem codeRows_clean {rel : Int} {n k : Nat} {l r : MergeSide} : ∀ {ps : List (Option Insn × Option Insn)}
    {f b : Bool} {rows : List (List Cell)}, codeRows rel n k l r f b ps = .ok rows → ∀ x ∈ rows, CleanCells x := by
  intro ps
  induction ps with
  | nil => intro f b rows h x hx; simp only [codeRows, Except.ok.injEq] at h; subst h; simp at hx
  | cons p ps ih =>
    obtain ⟨a, c⟩ := p
    intro f b rows h x hx
    rw [codeRows] at h
    split at h
    · simp at h
    · rename_i lc b1 h1
      split at h
      · simp at h
      · rename_i rc b2 h2
        split at h
        · simp at h
        · rename_i rs h3
          simp only [Except.ok.injEq] at h
          subst h
          rcases List.mem_cons.1 hx with rfl | hx
          · refine (CleanCells.append ?_ (sideCells_clean h1)).append (sideCells_clean h2)
            split
            · exact .one (intText_clean _)
            · exact .nil
          · exact ih h3 x hx

theorem concatRes_each {β γ : Type} {f : β → Res (List γ)} : ∀ {xs : List β} {ys : List γ}, concatRes f xs = .ok ys →
    ∀ y ∈ ys, ∃ x ∈ xs, ∃ zs, f x = .ok zs ∧ y ∈ zs := by
  intro xs
  induction xs with
  | nil => intro ys h y hy; simp only [concatRes, Except.ok.injEq] at h; subst h; simp at hy
  | cons x xs ih =>
    intro ys h y hy
    rw [concatRes] at h
    split at h
    · simp at h
    · rename_i as ha
      split at h
      · simp at h
      · rename_i bs hb
        simp only [Except.ok.injEq] at h
        subst h
        rcases List.mem_append.1 hy with hy | hy
        · exact ⟨x, by simp, as, ha, hy⟩
        · obtain ⟨z, hz, zs, e, hm⟩ := ih hb y hy
          exact ⟨z, by simp [hz], zs, e, hm⟩

theorem plainRows_clean {n : Nat} {g : LineGroup} : ∀ {is : List Insn} {f : Bool} {rows : List (List Cell)},
    plainRows n g f is = .ok rows → ∀ x ∈ rows, CleanCells x := by
  intro is
  induction is with
  | nil => intro f rows h x hx; simp only [plainRows, Except.ok.injEq] at h; subst h; simp at hx
  | cons i is ih =>
    intro f rows h x hx
    rw [plainRows] at h
    split at h
    · simp at h
    · rename_i cs hc
      split at h
      · simp at h
      · rename_i rs hr
        simp only [Except.ok.injEq] at h
        subst h
        rcases List.mem_cons.1 hx with rfl | hx
        · refine CleanCells.append ?_ (insnCells_clean hc)
          split
          · exact (CleanCells.one (intText_clean _)).append (.one (natText_not_mem _ (by decide)))
          · exact .nil
        · exact ih hr x hx

theorem codeView_clean {o : Opts} {l r : Option CodeInfo} {c : Change Opts} {v : CodeView}
    (h : codeViewOf o l r c = .ok v) : ∀ t ∈ v.raws, '<' ∉ t := by
  unfold codeViewOf at h
  split at h
  · simp at h
  · rename_i dual table ht
    simp only [Except.ok.injEq] at h
    subst h
    have hr : ∀ rows, table = some rows → ∀ x ∈ rows, CleanCells x := by
      intro rows e x hx
      unfold codeDetails at ht
      split at ht
      · split at ht
        · simp at ht
        · rename_i rs hrs
          simp only [Except.ok.injEq, Prod.mk.injEq] at ht
          rw [← ht.2] at e
          simp only [Option.some.injEq] at e
          subst e
          unfold changedCode at hrs
          split at hrs
          · simp at hrs
          · obtain ⟨y, _, zs, e2, hm⟩ := concatRes_each hrs x hx
            exact codeRows_clean e2 x hm
      · split at ht
        · simp at ht
        · rename_i t' ht'
          simp only [Except.ok.injEq, Prod.mk.injEq] at ht
          rw [← ht.2] at e
          subst e
          unfold unchangedCode at ht'
          split at ht'
          · simp at ht'
          · split at ht'
            · simp at ht'
            · split at ht'
              · simp at ht'
              · rename_i rs hrs
                simp only [Except.ok.injEq, Option.some.injEq] at ht'
                subst ht'
                obtain ⟨y, _, zs, e2, hm⟩ := concatRes_each hrs x hx
                exact plainRows_clean e2 x hm
    intro t h
    unfold CodeView.raws at h
    simp only at h
    split at h
    · simp at h
    · obtain ⟨x, hx, h⟩ := List.mem_flatMap.1 h
      obtain ⟨y, hy, rfl⟩ := List.mem_map.1 h
      exact hr _ rfl x hx y hy

/-! ### Class, fields and methods -/

theorem classText_clean {v : Res PVal} (h : ∀ n, v = .ok (.str n) → '<' ∉ n) : CleanRes (classText v) := by
  intro s hs
  unfold classText at hs
  obtain ⟨a, ha, hs⟩ := except_bind_ok hs
  obtain ⟨b, hb, hs⟩ := except_bind_ok hs
  simp only [Except.ok.injEq] at hs
  subst hs
  refine prettyClass_clean (h b ?_)
  cases a <;> simp [PVal.asStr] at hb
  rw [ha, hb]

theorem interfaces_clean {E : PrintEnv} {c : ClassInfo} (h : PlainTexts E c) {ts : List Str}
    (e : interfaceTexts c E.lim = .ok ts) : ∀ t ∈ ts, '<' ∉ t := by
  unfold interfaceTexts at e
  obtain ⟨vs, hv, e⟩ := except_bind_ok e
  exact classTexts_clean e fun n hn => h.interfaces vs n hv hn

theorem exceptions_clean {E : PrintEnv} {c : ClassInfo} (h : PlainTexts E c) {m : Member} (hm : m ∈ c.methods)
    {ts : List Str} (e : m.prettyExceptions c.pool E.lim = .ok ts) : ∀ t ∈ ts, '<' ∉ t := by
  unfold Member.prettyExceptions at e
  split at e
  · simp at e
  · rename_i vs hv
    exact classTexts_clean e fun n hn => h.exceptions m hm vs n hv hn

theorem infoSubs_clean {E : ClassPageEnv} {l r : ClassInfo} {kids : List (Change Opts)} {ss : List Sub}
    (h : infoSubs E l r kids = .ok ss) (hl : PlainTexts E.print l) (hr : PlainTexts E.print r) :
    ∀ t ∈ rawAt [0, 1, 2, 3, 4, 5, 7] ss, '<' ∉ t := by
  unfold infoSubs at h
  refine rawAt_clean h ?_
  intro i hi x hx
  simp only [List.mem_cons, List.not_mem_nil, or_false] at hi
  rcases hi with rfl | rfl | rfl | rfl | rfl | rfl | rfl <;>
    simp only [List.getElem?_cons_zero, List.getElem?_cons_succ, Option.some.injEq] at hx <;> subst hx
  · exact askChild_clean (classText_clean hl.this) (classText_clean hr.this)
  · exact askChild_clean (.ok (flagsText_clean (classFlags_clean l))) (.ok (flagsText_clean (classFlags_clean r)))
  · exact askChild_clean (classText_clean hl.super) (classText_clean hr.super)
  · unfold interfacesSub
    split
    · intro s h; simp at h
    · refine askSub_clean (.map fun ts e => ?_) (.map fun ts e => commaJoinOr_clean (interfaces_clean hr e))
      split
      · exact commaJoinOr_clean (interfaces_clean hl e)
      · exact commaJoin_clean (interfaces_clean hl e)
  · exact askChild_clean (.ok (versionText_clean l)) (.ok (versionText_clean r))
  · exact askChild_clean (.ok (platformText_clean l)) (.ok (platformText_clean r))
  · exact askChild_clean (.ok (pyBoolText_clean _)) (.ok (pyBoolText_clean _))

theorem fieldSubs_clean {E : ClassPageEnv} {lp rp : Pool} {a b : Member} {n n' : Str} {t t' : JType}
    {kids : List (Change Opts)} {ss : List Sub} (h : fieldSubs E lp rp a b kids = .ok ss)
    (ha : IsField lp E.print.lim a n t) (hb : IsField rp E.print.lim b n' t') :
    ∀ t ∈ rawAt [1, 2, 5] ss, '<' ∉ t := by
  unfold fieldSubs at h
  refine rawAt_clean h ?_
  intro i hi x hx
  simp only [List.mem_cons, List.not_mem_nil, or_false] at hi
  rcases hi with rfl | rfl | rfl <;>
    simp only [List.getElem?_cons_zero, List.getElem?_cons_succ, Option.some.injEq] at hx <;> subst hx
  · rw [field_type ha, field_type hb]
    exact askChild_clean (.ok (java_clean ha.types)) (.ok (java_clean hb.types))
  · exact askChild_clean (.ok (flagsText_clean (memberFlags_clean a))) (.ok (flagsText_clean (memberFlags_clean b)))
  · exact askChild_clean (.ok (pyBoolText_clean _)) (.ok (pyBoolText_clean _))

theorem args_clean {args : List JType} {ret : Option JType} (h : JavaTypes args ret) :
    ∀ s ∈ args.map JType.java, '<' ∉ s := by
  intro s hs
  obtain ⟨t, ht, rfl⟩ := List.mem_map.1 hs
  exact java_clean (h.1 t ht)

theorem methodSubs_clean {E : ClassPageEnv} {l r : ClassInfo} {a b : Member} {n n' : Str} {args args' : List JType}
    {ret ret' : Option JType} {kids : List (Change Opts)} {ss : List Sub}
    (h : methodSubs E l.pool r.pool a b kids = .ok ss) (ha : IsMethod l.pool E.print.lim a n args ret)
    (hb : IsMethod r.pool E.print.lim b n' args' ret') (hl : PlainTexts E.print l) (hr : PlainTexts E.print r)
    (hma : a ∈ l.methods) (hmb : b ∈ r.methods) :
    ∀ t ∈ rawAt [1, 2, 3, 5, 6, 7] ss, '<' ∉ t := by
  unfold methodSubs at h
  refine rawAt_clean h ?_
  intro i hi x hx
  simp only [List.mem_cons, List.not_mem_nil, or_false] at hi
  rcases hi with rfl | rfl | rfl | rfl | rfl | rfl <;>
    simp only [List.getElem?_cons_zero, List.getElem?_cons_succ, Option.some.injEq] at hx <;> subst hx
  · rw [(method_types ha).2, (method_types hb).2]
    exact askChild_clean (.ok (retJava_clean ha.types)) (.ok (retJava_clean hb.types))
  · rw [(method_types ha).1, (method_types hb).1]
    exact askChild_clean (.ok (inParens_clean (args_clean ha.types))) (.ok (inParens_clean (args_clean hb.types)))
  · exact askChild_clean (.ok (flagsText_clean (memberFlags_clean a))) (.ok (flagsText_clean (memberFlags_clean b)))
  · exact askChild_clean (.map fun ts e => inParens_clean (exceptions_clean hl hma e))
      (.map fun ts e => inParens_clean (exceptions_clean hr hmb e))
  · exact askChild_clean (.map fun b _ => pyBoolText_clean b) (.map fun b _ => pyBoolText_clean b)
  · exact askChild_clean (.ok (pyBoolText_clean _)) (.ok (pyBoolText_clean _))

theorem viewsOf_each {view : MemberDelta → Change Opts → Res MemberView} : ∀ {ds : List MemberDelta}
    {cs : List (Change Opts)} {vs : List MemberView}, viewsOf view ds cs = .ok vs →
    ∀ v ∈ vs, ∃ d ∈ ds, ∃ c, view d c = .ok v := by
  intro ds
  induction ds with
  | nil => intro cs vs h v hv; simp only [viewsOf, Except.ok.injEq] at h; subst h; simp at hv
  | cons d ds ih =>
    intro cs vs h v hv
    cases cs with
    | nil => simp only [viewsOf, Except.ok.injEq] at h; subst h; simp at hv
    | cons c cs =>
      rw [viewsOf] at h
      split at h
      · simp at h
      · rename_i w hw
        split at h
        · simp at h
        · rename_i ws hws
          simp only [Except.ok.injEq] at h
          subst h
          rcases List.mem_cons.1 hv with rfl | hv
          · exact ⟨d, by simp, c, hw⟩
          · obtain ⟨d', h1, c', h2⟩ := ih hws v hv
            exact ⟨d', by simp [h1], c', h2⟩

theorem fieldView_clean {E : ClassPageEnv} {o : Opts} {l r : ClassInfo} {d : MemberDelta} {c : Change Opts}
    {v : MemberView} (h : fieldView E o l.pool r.pool d c = .ok v) (hl : JavaMembers E.print.lim l)
    (hr : JavaMembers E.print.lim r) (hpl : PlainTexts E.print l) (hpr : PlainTexts E.print r)
    (hd : ∀ a b, d = .changed a b → a ∈ l.fields ∧ b ∈ r.fields) : ∀ t ∈ v.raws, '<' ∉ t := by
  cases d with
  | added m => simp only [fieldView, Except.ok.injEq] at h; subst h; intro t ht; simp [MemberView.raws] at ht
  | removed m => simp only [fieldView, Except.ok.injEq] at h; subst h; intro t ht; simp [MemberView.raws] at ht
  | changed a b =>
    obtain ⟨ha, hb⟩ := hd a b rfl
    obtain ⟨n, t, hfa⟩ := hl.fields a ha
    obtain ⟨n', t', hfb⟩ := hr.fields b hb
    unfold fieldView at h
    obtain ⟨_, e1, h⟩ := except_bind_ok h
    obtain ⟨_, e2, h⟩ := except_bind_ok h
    obtain ⟨_, _, h⟩ := except_bind_ok h
    obtain ⟨_, e3, h⟩ := except_bind_ok h
    obtain ⟨_, _, h⟩ := except_bind_ok h
    obtain ⟨_, e4, h⟩ := except_bind_ok h
    simp only [Except.ok.injEq] at h
    subst h
    intro t ht
    simp only [MemberView.raws, List.mem_append] at ht
    rcases ht with (ht | ht) | ht
    · exact fieldSubs_clean e2 hfa hfb t ht
    · exact annoView_clean e3 (by decide) (hpl.fieldAnnos a ha) (hpr.fieldAnnos b hb) t ht
    · exact annoView_clean e4 (by decide) (hpl.fieldAnnos a ha) (hpr.fieldAnnos b hb) t ht

theorem methodView_clean {E : ClassPageEnv} {o : Opts} {l r : ClassInfo} {d : MemberDelta} {c : Change Opts}
    {v : MemberView} (h : methodView E o l.pool r.pool d c = .ok v) (hl : JavaMembers E.print.lim l)
    (hr : JavaMembers E.print.lim r) (hpl : PlainTexts E.print l) (hpr : PlainTexts E.print r)
    (hd : ∀ a b, d = .changed a b → a ∈ l.methods ∧ b ∈ r.methods) : ∀ t ∈ v.raws, '<' ∉ t := by
  cases d with
  | added m =>
    unfold methodView at h
    obtain ⟨n, e1, h⟩ := except_bind_ok h
    obtain ⟨_, _, h⟩ := except_bind_ok h
    simp only [Except.ok.injEq] at h
    subst h
    intro t ht
    simp [MemberView.raws] at ht
  | removed m =>
    unfold methodView at h
    obtain ⟨n, e1, h⟩ := except_bind_ok h
    obtain ⟨_, _, h⟩ := except_bind_ok h
    simp only [Except.ok.injEq] at h
    subst h
    intro t ht
    simp [MemberView.raws] at ht
  | changed a b =>
    obtain ⟨ha, hb⟩ := hd a b rfl
    obtain ⟨n, as, t, hfa⟩ := hl.methods a ha
    obtain ⟨n', as', t', hfb⟩ := hr.methods b hb
    unfold methodView at h
    obtain ⟨_, e1, h⟩ := except_bind_ok h
    obtain ⟨_, e2, h⟩ := except_bind_ok h
    obtain ⟨_, _, h⟩ := except_bind_ok h
    obtain ⟨_, e3, h⟩ := except_bind_ok h
    obtain ⟨_, _, h⟩ := except_bind_ok h
    obtain ⟨_, e4, h⟩ := except_bind_ok h
    obtain ⟨_, _, h⟩ := except_bind_ok h
    obtain ⟨_, _, h⟩ := except_bind_ok h
    obtain ⟨_, _, h⟩ := except_bind_ok h
    obtain ⟨_, e5, h⟩ := except_bind_ok h
    simp only [Except.ok.injEq] at h
    subst h
    intro t ht
    simp only [MemberView.raws, List.mem_append] at ht
    rcases ht with ((ht | ht) | ht) | ht
    · exact methodSubs_clean e2 hfa hfb hpl hpr ha hb t ht
    · exact annoView_clean e3 (by decide) (hpl.methodAnnos a ha) (hpr.methodAnnos b hb) t ht
    · exact annoView_clean e4 (by decide) (hpl.methodAnnos a ha) (hpr.methodAnnos b hb) t ht
    · exact codeView_clean e5 t ht

/-- The texts that go into the page unescaped. -/
theorem page_clean {E : ClassPageEnv} {o : Opts} {l r : ClassInfo} {p : ClassPage}
    (h : classReportPage E o l r = .ok p) (hl : JavaMembers E.print.lim l) (hr : JavaMembers E.print.lim r)
    (hpl : PlainTexts E.print l) (hpr : PlainTexts E.print r) : ∀ t ∈ p.raws, '<' ∉ t := by
  have hm := madeFrom h
  obtain ⟨fds, hfd, _, hff, hfc⟩ := fields_fates hl hr
  obtain ⟨mds, hmd, _, hmf, hmc⟩ := methods_fates hl hr
  intro t ht
  unfold ClassPage.raws at ht
  simp only [List.mem_append] at ht
  rcases ht with ((((ht | ht) | ht) | ht) | ht) | ht
  · obtain ⟨_, e⟩ := hm.info; exact infoSubs_clean e hpl hpr t ht
  · obtain ⟨_, e⟩ := hm.annos; exact annoView_clean e (by decide) hpl.annos hpr.annos t ht
  · obtain ⟨_, e⟩ := hm.invisible; exact annoView_clean e (by decide) hpl.annos hpr.annos t ht
  · obtain ⟨_, e⟩ := hm.pool; exact poolView_clean e t ht
  · obtain ⟨c, hc, e⟩ := hm.fields
    obtain ⟨v, hv, ht⟩ := List.mem_flatMap.1 ht
    obtain ⟨d, hd, c', e'⟩ := viewsOf_each (members_made hfd hc e).2 v hv
    refine fieldView_clean e' hl hr hpl hpr ?_ t ht
    rintro a b rfl
    exact ⟨(hfc a b hd).1, (hfc a b hd).2.1⟩
  · obtain ⟨c, hc, e⟩ := hm.methods
    obtain ⟨v, hv, ht⟩ := List.mem_flatMap.1 ht
    obtain ⟨d, hd, c', e'⟩ := viewsOf_each (members_made hmd hc e).2 v hv
    refine methodView_clean e' hl hr hpl hpr ?_ t ht
    rintro a b rfl
    exact ⟨(hmc a b hd).1, (hmc a b hd).2.1⟩

/-! ### C172 -/

/-- C172. The HTML page of a class comparison names every field and every method of either class
in exactly one heading, as added, removed or kept. -/
def C172_full : Prop := ∀ (E : ClassPageEnv) (o : Opts) (l r : ClassInfo) (p : ClassPage),
  classReportPage E o l r = .ok p → JavaMembers E.print.lim l → JavaMembers E.print.lim r →
  PlainTexts E.print l → PlainTexts E.print r →
  ShowsFates (Fate.Of (SameField E.print.lim l.pool r.pool) l.fields r.fields)
    (FieldTitle E.print.lim l.pool r.pool) (shownMembers "Field".toList p.html) ∧
  ShowsFates (Fate.Of (SameMethod E.print.lim l.pool r.pool) l.methods r.methods)
    (MethodTitle E.print.lim l.pool r.pool) (shownMembers "Method".toList p.html)

section
variable {E : ClassPageEnv} {o : Opts} {l r : ClassInfo} {p : ClassPage}
variable (h : classReportPage E o l r = .ok p) (hl : JavaMembers E.print.lim l) (hr : JavaMembers E.print.lim r)
variable (hpl : PlainTexts E.print l) (hpr : PlainTexts E.print r)
include h hl hr hpl hpr

/-- C172. Every method is named in one heading, as added, removed or kept, and every kept field
is; no other heading names a field or a method. (Missing: the names of added and of removed
fields, which the page does not show.) -/
theorem C172_partial :
    ShowsFates (fun f m => f = .kept ∧ Fate.Of (SameField E.print.lim l.pool r.pool) l.fields r.fields f m)
      (FieldTitle E.print.lim l.pool r.pool) (shownMembers "Field".toList p.html) ∧
    ShowsFates (Fate.Of (SameMethod E.print.lim l.pool r.pool) l.methods r.methods)
      (MethodTitle E.print.lim l.pool r.pool) (shownMembers "Method".toList p.html) :=
  shown_members h hl hr (page_clean h hl hr hpl hpr)

/-- C172. It holds for exactly the classes without added and removed fields. -/
theorem C172_exact :
    (ShowsFates (Fate.Of (SameField E.print.lim l.pool r.pool) l.fields r.fields)
      (FieldTitle E.print.lim l.pool r.pool) (shownMembers "Field".toList p.html) ∧
    ShowsFates (Fate.Of (SameMethod E.print.lim l.pool r.pool) l.methods r.methods)
      (MethodTitle E.print.lim l.pool r.pool) (shownMembers "Method".toList p.html)) ↔
    (∀ a ∈ l.fields, ∃ b ∈ r.fields, SameField E.print.lim l.pool r.pool a b) ∧
      ∀ b ∈ r.fields, ∃ a ∈ l.fields, SameField E.print.lim l.pool r.pool a b := by
  obtain ⟨hf, hm⟩ := C172_partial h hl hr hpl hpr
  constructor
  · rintro ⟨⟨ms, _, hw, _, hs⟩, _⟩
    obtain ⟨ks, _, hk, _, hs'⟩ := hf
    have only : ∀ f m, Fate.Of (SameField E.print.lim l.pool r.pool) l.fields r.fields f m → f = .kept := by
      intro f m hfm
      obtain ⟨x, hx, e⟩ := List.mem_map.1 ((hw f m).2 hfm)
      have h1 : (f.word, x.2.2) ∈ shownMembers "Field".toList p.html := by
        rw [hs]
        exact List.mem_map.2 ⟨x, hx, by simp only [Prod.mk.injEq] at e; rw [e.1]⟩
      rw [hs'] at h1
      obtain ⟨y, hy, e'⟩ := List.mem_map.1 h1
      have h2 := ((hk y.1 y.2.1).1 (List.mem_map.2 ⟨y, hy, rfl⟩)).1
      simp only [Prod.mk.injEq] at e'
      rw [h2] at e'
      revert e'
      cases f
      · intro e'; exact absurd e'.1 (by decide)
      · intro e'; exact absurd e'.1 (by decide)
      · intro _; rfl
    constructor
    · intro a ha
      rcases Classical.em (∃ b ∈ r.fields, SameField E.print.lim l.pool r.pool a b) with h1 | h1
      · exact h1
      · exact absurd (only .removed a ⟨ha, fun b hb hs => h1 ⟨b, hb, hs⟩⟩) (by decide)
    · intro b hb
      rcases Classical.em (∃ a ∈ l.fields, SameField E.print.lim l.pool r.pool a b) with h1 | h1
      · exact h1
      · exact absurd (only .added b ⟨hb, fun a ha hs => h1 ⟨a, ha, hs⟩⟩) (by decide)
  · rintro ⟨h1, h2⟩
    refine ⟨?_, hm⟩
    obtain ⟨ks, hn, hk, ht, hs⟩ := hf
    refine ⟨ks, hn, ?_, ht, hs⟩
    intro f m
    rw [hk f m]
    constructor
    · exact fun h => h.2
    · intro hfm
      refine ⟨?_, hfm⟩
      cases f with
      | kept => rfl
      | added =>
        obtain ⟨a, ha, hs⟩ := h2 m hfm.1
        exact absurd hs (hfm.2 a ha)
      | removed =>
        obtain ⟨b, hb, hs⟩ := h1 m hfm.1
        exact absurd hs (hfm.2 b hb)
end
/-! ### Two classes -/

def pagePool : Pool :=
  [none, some (.utf8 "A".toList), some (.cls 1), some (.utf8 "n".toList), some (.utf8 "I".toList),
    some (.utf8 "k".toList), some (.utf8 "<init>".toList), some (.utf8 "()V".toList), some (.utf8 "m".toList),
    some (.utf8 "([ILA;)I".toList), some (.utf8 "B".toList), some (.cls 10)]

def fieldN : Member := ⟨1, 3, 4, [], false⟩
def fieldK : Member := ⟨2, 5, 4, [], false⟩
def methodInit : Member := ⟨1, 6, 7, [], true⟩
def methodM : Member := ⟨1, 8, 9, [], true⟩
def methodK : Member := ⟨1, 5, 7, [], true⟩

/-- `class A extends B { int n; A(); int m(int[], A); }` -/
def oldPageClass : ClassInfo := ⟨(52, 0), pagePool, 0x21, 2, 11, [], [fieldN], [methodInit, methodM], []⟩

/-- `class A extends B { int n; private int k; int m(int[], A); void k(); }` -/
def newPageClass : ClassInfo := ⟨(52, 0), pagePool, 0x21, 2, 11, [], [fieldN, fieldK], [methodM, methodK], []⟩

def pageEnv : ClassPageEnv := ⟨⟨10, 10, fun _ => true, fun _ => []⟩, noTexts, fun _ => []⟩

theorem names_A : JavaClassName "A".toList := ⟨by decide, by intro p; cases p <;> decide, by decide⟩

theorem is_fieldN : IsField pagePool 10 fieldN "n".toList (.prim .int) :=
  ⟨rfl, by decide +kernel, by decide +kernel, trivial⟩
theorem is_fieldK : IsField pagePool 10 fieldK "k".toList (.prim .int) :=
  ⟨rfl, by decide +kernel, by decide +kernel, trivial⟩
theorem is_methodInit : IsMethod pagePool 10 methodInit "<init>".toList [] none :=
  ⟨rfl, by decide +kernel, by decide +kernel, ⟨by decide, .inr (.inl rfl)⟩, by intro t h; simp at h, by intro t h; simp at h⟩
theorem is_methodK : IsMethod pagePool 10 methodK "k".toList [] none :=
  ⟨rfl, by decide +kernel, by decide +kernel, ⟨by decide, .inl (by decide)⟩, by intro t h; simp at h, by intro t h; simp at h⟩
theorem is_methodM : IsMethod pagePool 10 methodM "m".toList [.arr (.prim .int), .cls "A".toList] (some (.prim .int)) := by
  refine ⟨rfl, by decide +kernel, by decide +kernel, ⟨by decide, .inl (by decide)⟩, ?_, ?_⟩
  · intro t h
    simp only [List.mem_cons, List.not_mem_nil, or_false] at h
    rcases h with rfl | rfl
    · trivial
    · exact names_A
  · intro t h
    simp only [Option.some.injEq] at h
    subst h
    trivial

theorem members_old : JavaMembers 10 oldPageClass := by
  refine ⟨?_, ?_, ?_, ?_⟩
  · intro m h
    simp only [oldPageClass, List.mem_cons, List.not_mem_nil, or_false] at h
    exact ⟨_, _, h ▸ is_fieldN⟩
  · intro m h
    simp only [oldPageClass, List.mem_cons, List.not_mem_nil, or_false] at h
    rcases h with rfl | rfl
    · exact ⟨_, _, _, is_methodInit⟩
    · exact ⟨_, _, _, is_methodM⟩
  · exact List.pairwise_singleton _ _
  · exact List.pairwise_pair.2 fun h => absurd ((ident_method is_methodInit is_methodM).1 h) (by decide +kernel)

theorem members_new : JavaMembers 10 newPageClass := by
  refine ⟨?_, ?_, ?_, ?_⟩
  · intro m h
    simp only [newPageClass, List.mem_cons, List.not_mem_nil, or_false] at h
    rcases h with rfl | rfl
    · exact ⟨_, _, is_fieldN⟩
    · exact ⟨_, _, is_fieldK⟩
  · intro m h
    simp only [newPageClass, List.mem_cons, List.not_mem_nil, or_false] at h
    rcases h with rfl | rfl
    · exact ⟨_, _, _, is_methodM⟩
    · exact ⟨_, _, _, is_methodK⟩
  · exact List.pairwise_pair.2 fun h => absurd ((ident_field is_fieldN is_fieldK).1 h) (by decide +kernel)
  · exact List.pairwise_pair.2 fun h => absurd ((ident_method is_methodM is_methodK).1 h) (by decide +kernel)

/-- A class without annotations, interfaces and exceptions. -/
theorem plain_bare {E : PrintEnv} {c : ClassInfo} {n s : Str} (h1 : c.getThis E.lim = .ok (.str n)) (h2 : '<' ∉ n)
    (h3 : c.getSuper E.lim = .ok (.str s)) (h4 : '<' ∉ s) (h5 : c.interfaces = []) (h6 : c.attribs = [])
    (h7 : ∀ m ∈ c.fields ++ c.methods, m.attribs = []) : PlainTexts E c := by
  have ha : PlainAnnos E c.pool [] := by
    intro attr _ xs h a hx
    change Except.ok [] = Except.ok xs at h
    simp only [Except.ok.injEq] at h
    subst h
    simp at hx
  refine ⟨?_, ?_, ?_, ?_, h6 ▸ ha, fun m hm => (h7 m (by simp [hm])) ▸ ha, fun m hm => (h7 m (by simp [hm])) ▸ ha⟩
  · intro x hx; rw [h1] at hx; simp only [Except.ok.injEq, PVal.str.injEq] at hx; exact hx ▸ h2
  · intro x hx; rw [h3] at hx; simp only [Except.ok.injEq, PVal.str.injEq] at hx; exact hx ▸ h4
  · intro vs x hx hm
    unfold ClassInfo.getInterfaces at hx
    rw [h5] at hx
    change Except.ok [] = Except.ok vs at hx
    simp only [Except.ok.injEq] at hx
    subst hx
    simp at hm
  · intro m hm vs x hx hmm
    have := h7 m (by simp [hm])
    unfold Member.getExceptions at hx
    rw [this] at hx
    change Except.ok [] = Except.ok vs at hx
    simp only [Except.ok.injEq] at hx
    subst hx
    simp at hmm

theorem plain_old : PlainTexts pageEnv.print oldPageClass :=
  plain_bare (n := "A".toList) (s := "B".toList) (by decide +kernel) (by decide) (by decide +kernel) (by decide)
    rfl rfl (by decide)

theorem plain_new : PlainTexts pageEnv.print newPageClass :=
  plain_bare (n := "A".toList) (s := "B".toList) (by decide +kernel) (by decide) (by decide +kernel) (by decide)
    rfl rfl (by decide)

/-- The added field `k` has no heading with its name. -/
theorem C172_full_fails : ¬ C172_full := by
  intro hfull
  have hok : ∃ p, classReportPage pageEnv [] oldPageClass newPageClass = .ok p := by
    have : (classReportPage pageEnv [] oldPageClass newPageClass).toBool = true := by decide +kernel
    cases h : classReportPage pageEnv [] oldPageClass newPageClass with
    | ok p => exact ⟨p, rfl⟩
    | error e => rw [h] at this; simp [Except.toBool] at this
  obtain ⟨p, hp⟩ := hok
  have := (C172_exact hp members_old members_new plain_old plain_new).1
    (hfull _ _ _ _ p hp members_old members_new plain_old plain_new)
  obtain ⟨a, ha, hs⟩ := this.2 fieldK (by decide)
  simp only [oldPageClass, List.mem_cons, List.not_mem_nil, or_false] at ha
  subst ha
  exact absurd ((ident_field is_fieldN is_fieldK).1 hs) (by decide +kernel)

example : (classReportPage pageEnv [] oldPageClass newPageClass).map (fun p => shownMembers "Field".toList p.html) =
    .ok [("Change".toList, "n".toList)] := by decide +kernel

example : (classReportPage pageEnv [] oldPageClass newPageClass).map (fun p => shownMembers "Method".toList p.html) =
    .ok [("Added".toList, "k():void".toList), ("Removed".toList, "<init>():void".toList),
      ("Change".toList, "m(int[], A):int".toList)] := by decide +kernel

end Javatools
