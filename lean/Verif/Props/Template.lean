import Verif.Model.Template
import Verif.Proofs.Dict
/-
C130, C131: the templates of the HTML report.
-/
namespace Javatools

/-! ### Specification -/

section
variable {κ : Type}

/-- Each class is defined once, after its bases. -/
def Hier.Sound (h : Hier κ) : Prop :=
  (h.map Prod.fst).Nodup ∧
    ∀ h₁ c bs h₂, h = h₁ ++ (c, bs) :: h₂ → ∀ b ∈ bs, b ∈ h₁.map Prod.fst

/-- `a` is a proper superclass of `c`. -/
inductive Hier.Below (h : Hier κ) : κ → κ → Prop
  | base {c b : κ} {bs : List κ} : (c, bs) ∈ h → b ∈ bs → Hier.Below h c b
  | step {c b a : κ} {bs : List κ} : (c, bs) ∈ h → b ∈ bs → Hier.Below h b a → Hier.Below h c a

/-- `issubclass(c, a)` -/
def Hier.IsSub (h : Hier κ) (c a : κ) : Prop := c = a ∨ h.Below c a

end

/-! ### Merging -/

section
variable {κ : Type} [DecidableEq κ]

theorem pickHead_some {all ls : List (List κ)} {h : κ} (hp : pickHead all ls = some h) :
    (∃ l ∈ ls, h ∈ l) ∧ ∀ l ∈ all, h ∉ l.tail := by
  induction ls with
  | nil => simp [pickHead] at hp
  | cons l ls ih =>
    cases l with
    | nil =>
      obtain ⟨⟨l, hl, hm⟩, ha⟩ := ih (by simpa [pickHead] using hp)
      exact ⟨⟨l, List.mem_cons_of_mem _ hl, hm⟩, ha⟩
    | cons x xs =>
      rw [pickHead] at hp
      split at hp
      · obtain ⟨⟨l, hl, hm⟩, ha⟩ := ih hp
        exact ⟨⟨l, List.mem_cons_of_mem _ hl, hm⟩, ha⟩
      · rename_i hn
        obtain rfl : x = h := by simpa using hp
        refine ⟨⟨x :: xs, by simp, by simp⟩, ?_⟩
        simpa using hn

theorem not_mem_dropHead {h : κ} {l : List κ} (ht : h ∉ l.tail) : h ∉ dropHead h l := by
  cases l with
  | nil => simp [dropHead]
  | cons x xs =>
    rw [dropHead]
    split
    · simpa using ht
    · rename_i hx
      simp only [List.tail_cons] at ht
      simp [ht, Ne.symm hx]

theorem dropHead_sublist (h : κ) (l : List κ) : (dropHead h l).Sublist l := by
  cases l with
  | nil => simp [dropHead]
  | cons x xs =>
    rw [dropHead]
    split
    · exact List.sublist_cons_self x xs
    · exact List.Sublist.refl _

theorem sublist_of_dropHead {h : κ} {l out : List κ} (hs : (dropHead h l).Sublist out) :
    l.Sublist (h :: out) := by
  cases l with
  | nil => simp
  | cons x xs =>
    rw [dropHead] at hs
    split at hs
    · rename_i hx
      subst hx
      exact hs.cons_cons x
    · exact hs.cons h

/-- Merging keeps the order of each list, adds nothing and repeats nothing. -/
theorem c3Merge_spec {n : Nat} {ls : List (List κ)} {out : List κ} (hm : c3Merge n ls = some out) :
    (∀ l ∈ ls, l.Sublist out) ∧ (∀ x ∈ out, ∃ l ∈ ls, x ∈ l) ∧ out.Nodup := by
  induction n generalizing ls out with
  | zero =>
    rw [c3Merge] at hm
    split at hm
    · rename_i he
      obtain rfl : [] = out := by simpa using hm
      refine ⟨fun l hl => ?_, by simp, by simp⟩
      have := List.all_eq_true.1 he l hl
      simp_all
    · simp at hm
  | succ n ih =>
    rw [c3Merge] at hm
    split at hm
    · rename_i he
      obtain rfl : [] = out := by simpa using hm
      refine ⟨fun l hl => ?_, by simp, by simp⟩
      have := List.all_eq_true.1 he l hl
      simp_all
    · split at hm
      · simp at hm
      · rename_i h hp
        obtain ⟨out', ho, rfl⟩ := Option.map_eq_some_iff.1 hm
        obtain ⟨hs, hi, hn⟩ := ih ho
        obtain ⟨hin, ht⟩ := pickHead_some hp
        refine ⟨fun l hl => ?_, fun x hx => ?_, ?_⟩
        · exact sublist_of_dropHead (hs _ (List.mem_map_of_mem hl))
        · rcases List.mem_cons.1 hx with rfl | hx
          · exact hin
          · obtain ⟨l', hl', hxl⟩ := hi x hx
            obtain ⟨l, hl, rfl⟩ := List.mem_map.1 hl'
            exact ⟨l, hl, (dropHead_sublist h l).subset hxl⟩
        · refine List.nodup_cons.2 ⟨fun hx => ?_, hn⟩
          obtain ⟨l', hl', hxl⟩ := hi h hx
          obtain ⟨l, hl, rfl⟩ := List.mem_map.1 hl'
          exact not_mem_dropHead (ht l hl) hxl

theorem allSome_spec {α β : Type} {f : α → Option β} {l : List α} {out : List β}
    (h : allSome f l = some out) :
    (∀ x ∈ l, ∃ y ∈ out, f x = some y) ∧ (∀ y ∈ out, ∃ x ∈ l, f x = some y) := by
  induction l generalizing out with
  | nil =>
    obtain rfl : [] = out := by simpa [allSome] using h
    simp
  | cons x xs ih =>
    rw [allSome] at h
    split at h
    · rename_i y ys hy hys
      obtain rfl : y :: ys = out := by simpa using h
      obtain ⟨h1, h2⟩ := ih hys
      refine ⟨fun a ha => ?_, fun b hb => ?_⟩
      · rcases List.mem_cons.1 ha with rfl | ha
        · exact ⟨y, by simp, hy⟩
        · obtain ⟨b, hb, e⟩ := h1 a ha
          exact ⟨b, List.mem_cons_of_mem _ hb, e⟩
      · rcases List.mem_cons.1 hb with rfl | hb
        · exact ⟨x, by simp, hy⟩
        · obtain ⟨a, ha, e⟩ := h2 b hb
          exact ⟨a, List.mem_cons_of_mem _ ha, e⟩
    · simp at h

/-! ### The order -/

/-- The same with the newest class first. -/
def SoundRev : Hier κ → Prop
  | [] => True
  | (c, bs) :: older =>
    c ∉ older.map Prod.fst ∧ (∀ b ∈ bs, b ∈ older.map Prod.fst) ∧ SoundRev older

theorem soundRev_of_sound {h : Hier κ} (hs : h.Sound) : SoundRev h.reverse := by
  generalize hr : h.reverse = r
  induction r generalizing h with
  | nil => trivial
  | cons p older ih =>
    obtain ⟨c, bs⟩ := p
    have he : h = older.reverse ++ [(c, bs)] := by
      have := congrArg List.reverse hr
      simpa using this
    subst he
    refine ⟨?_, ?_, ?_⟩
    · have := hs.1
      rw [List.map_append, List.nodup_append] at this
      intro hc
      refine this.2.2 c ?_ c (by simp) rfl
      simpa using hc
    · intro b hb
      have := hs.2 older.reverse c bs [] rfl b hb
      simpa using this
    · refine ih (h := older.reverse) ⟨?_, ?_⟩ (by simp)
      · have := hs.1
        rw [List.map_append, List.nodup_append] at this
        exact this.1
      · intro h₁ d ds h₂ e
        exact hs.2 h₁ d ds (h₂ ++ [(c, bs)]) (by rw [e]; simp)

theorem below_mem {h : Hier κ} (hs : SoundRev h) {c a : κ} (hb : h.Below c a) :
    c ∈ h.map Prod.fst ∧ a ∈ h.map Prod.fst := by
  have key : ∀ {h : Hier κ}, SoundRev h → ∀ {c b : κ} {bs : List κ}, (c, bs) ∈ h → b ∈ bs →
      b ∈ h.map Prod.fst := by
    intro h hs c b bs hm hb
    induction h with
    | nil => simp at hm
    | cons p older ih =>
      obtain ⟨d, ds⟩ := p
      rcases List.mem_cons.1 hm with e | hm
      · obtain ⟨rfl, rfl⟩ := Prod.mk.inj e
        exact List.mem_cons_of_mem _ (hs.2.1 b hb)
      · exact List.mem_cons_of_mem _ (ih hs.2.2 hm)
  induction hb with
  | base hm hb => exact ⟨List.mem_map.2 ⟨_, hm, rfl⟩, key hs hm hb⟩
  | step hm hb _ ih => exact ⟨List.mem_map.2 ⟨_, hm, rfl⟩, ih.2⟩

/-- The superclasses of an older class do not depend on newer ones. -/
theorem below_older {d : κ} {ds : List κ} {older : Hier κ} (hs : SoundRev ((d, ds) :: older))
    {c a : κ} (hc : c ∈ older.map Prod.fst) :
    Hier.Below ((d, ds) :: older) c a ↔ older.Below c a := by
  constructor
  · intro hb
    have : ∀ {c bs}, c ∈ older.map Prod.fst → (c, bs) ∈ (d, ds) :: older → (c, bs) ∈ older := by
      intro c bs hc hm
      rcases List.mem_cons.1 hm with e | hm
      · obtain ⟨rfl, rfl⟩ := Prod.mk.inj e
        exact absurd hc hs.1
      · exact hm
    induction hb with
    | base hm hb => exact .base (this hc hm) hb
    | step hm hb _ ih =>
      have hm' := this hc hm
      exact .step hm' hb (ih (below_mem hs.2.2 (.base hm' hb)).2)
  · intro hb
    clear hc
    induction hb with
    | base hm hb => exact .base (List.mem_cons_of_mem _ hm) hb
    | step hm hb _ ih => exact .step (List.mem_cons_of_mem _ hm) hb ih

theorem mroRev_spec {h : Hier κ} (hs : SoundRev h) {c : κ} {l : List κ}
    (hl : mroRev h c = some l) :
    c ∈ h.map Prod.fst ∧ l.head? = some c ∧ l.Nodup ∧ (∀ a, a ∈ l ↔ h.IsSub c a) ∧
      ∀ x y, x ∈ l → h.Below x y → [x, y].Sublist l := by
  induction h generalizing c l with
  | nil => simp [mroRev] at hl
  | cons p older ih =>
    obtain ⟨d, ds⟩ := p
    rw [mroRev] at hl
    split at hl
    · rename_i hd
      subst hd
      split at hl
      · simp at hl
      · rename_i ls hls
        obtain ⟨out, ho, rfl⟩ := Option.map_eq_some_iff.1 hl
        obtain ⟨hsub, hin, hnd⟩ := c3Merge_spec ho
        obtain ⟨ha, hb⟩ := allSome_spec hls
        have hmem : ∀ a, a ∈ out ↔ Hier.Below ((d, ds) :: older) d a := by
          intro a
          constructor
          · intro hx
            obtain ⟨l, hl, hal⟩ := hin a hx
            rcases List.mem_append.1 hl with hl | hl
            · obtain ⟨b, hbd, e⟩ := hb l hl
              have := ih hs.2.2 e
              rcases (this.2.2.2.1 a).1 hal with rfl | hba
              · exact .base (List.mem_cons_self) hbd
              · exact .step (List.mem_cons_self) hbd ((below_older hs (hs.2.1 b hbd)).2 hba)
            · rw [List.mem_singleton] at hl
              subst hl
              exact .base (List.mem_cons_self) hal
          · intro hx
            have hdd : ∀ {bs}, (d, bs) ∈ (d, ds) :: older → bs = ds := by
              intro bs hm
              rcases List.mem_cons.1 hm with e | hm
              · exact (Prod.mk.inj e).2
              · exact absurd (List.mem_map.2 ⟨_, hm, rfl⟩) hs.1
            have hthrough : ∀ b ∈ ds, ∀ a, Hier.IsSub older b a → a ∈ out := by
              intro b hbd a hsa
              obtain ⟨l, hl, e⟩ := ha b hbd
              exact (hsub l (List.mem_append_left _ hl)).subset (((ih hs.2.2 e).2.2.2.1 a).2 hsa)
            cases hx with
            | base hm hb => exact hthrough _ (hdd hm ▸ hb) _ (.inl rfl)
            | step hm hb hba =>
              have hb' := hdd hm ▸ hb
              exact hthrough _ hb' _ (.inr ((below_older hs (hs.2.1 _ hb')).1 hba))
        have hdout : d ∉ out := by
          intro hd
          obtain ⟨l, hl, hal⟩ := hin d hd
          rcases List.mem_append.1 hl with hl | hl
          · obtain ⟨b, hbd, e⟩ := hb l hl
            rcases ((ih hs.2.2 e).2.2.2.1 d).1 hal with rfl | hba
            · exact hs.1 (hs.2.1 _ hbd)
            · exact hs.1 (below_mem hs.2.2 hba).2
          · rw [List.mem_singleton] at hl
            subst hl
            exact hs.1 (hs.2.1 _ hal)
        refine ⟨by simp, by simp, List.nodup_cons.2 ⟨hdout, hnd⟩, ?_, ?_⟩
        · intro a
          rw [List.mem_cons, hmem, Hier.IsSub]
          exact or_congr_left ⟨Eq.symm, Eq.symm⟩
        · intro x y hx hxy
          rcases List.mem_cons.1 hx with rfl | hx
          · exact List.Sublist.cons_cons x (List.singleton_sublist.2 ((hmem y).2 hxy))
          · refine List.Sublist.cons d ?_
            have hol : ∃ b ∈ ds, ∃ l ∈ ls, mroRev older b = some l ∧ x ∈ l := by
              obtain ⟨l, hl, hal⟩ := hin x hx
              rcases List.mem_append.1 hl with hl | hl
              · obtain ⟨b, hbd, e⟩ := hb l hl
                exact ⟨b, hbd, l, hl, e, hal⟩
              · rw [List.mem_singleton] at hl
                subst hl
                obtain ⟨l, hl, e⟩ := ha x hal
                exact ⟨x, hal, l, hl, e, ((ih hs.2.2 e).2.2.2.1 x).2 (.inl rfl)⟩
            obtain ⟨b, hbd, l, hl, e, hxl⟩ := hol
            have sp := ih hs.2.2 e
            have hxo : x ∈ older.map Prod.fst := by
              rcases (sp.2.2.2.1 x).1 hxl with rfl | hbx
              · exact sp.1
              · exact (below_mem hs.2.2 hbx).2
            exact (sp.2.2.2.2 x y hxl ((below_older hs hxo).1 hxy)).trans
              (hsub l (List.mem_append_left _ hl))
    · rename_i hd
      obtain ⟨h1, h2, h3, h4, h5⟩ := ih hs.2.2 hl
      have hold : ∀ x ∈ l, x ∈ older.map Prod.fst := by
        intro x hx
        rcases (h4 x).1 hx with rfl | hb
        · exact h1
        · exact (below_mem hs.2.2 hb).2
      refine ⟨List.mem_cons_of_mem _ h1, h2, h3, fun a => ?_, fun x y hx hxy => ?_⟩
      · rw [h4, Hier.IsSub, Hier.IsSub, below_older hs h1]
      · exact h5 x y hx ((below_older hs (hold x hx)).1 hxy)

theorem below_reverse {h : Hier κ} {c a : κ} : Hier.Below h.reverse c a ↔ h.Below c a := by
  constructor
  · intro hb
    induction hb with
    | base hm hb => exact .base (List.mem_reverse.1 hm) hb
    | step hm hb _ ih => exact .step (List.mem_reverse.1 hm) hb ih
  · intro hb
    induction hb with
    | base hm hb => exact .base (List.mem_reverse.2 hm) hb
    | step hm hb _ ih => exact .step (List.mem_reverse.2 hm) hb ih

/-- The method resolution order: the class itself first, its superclasses and nothing else, each
once, and each class before all of its superclasses. -/
theorem mro_spec {h : Hier κ} (hs : h.Sound) {c : κ} {l : List κ} (hl : mro h c = some l) :
    l.head? = some c ∧ l.Nodup ∧ (∀ a, a ∈ l ↔ h.IsSub c a) ∧
      ∀ x y, x ∈ l → h.Below x y → [x, y].Sublist l := by
  obtain ⟨-, h2, h3, h4, h5⟩ := mroRev_spec (soundRev_of_sound hs) hl
  refine ⟨h2, h3, fun a => ?_, fun x y hx hxy => h5 x y hx (below_reverse.2 hxy)⟩
  rw [h4, Hier.IsSub, Hier.IsSub, below_reverse]

theorem sound_of_soundRev {h : Hier κ} (hs : SoundRev h) : Hier.Sound h.reverse := by
  induction h with
  | nil =>
    refine ⟨by simp, fun h₁ c bs h₂ e => ?_⟩
    simp at e
  | cons p older ih =>
    obtain ⟨c, bs⟩ := p
    obtain ⟨h1, h2⟩ := ih hs.2.2
    refine ⟨?_, fun h₁ d ds h₂ e b hb => ?_⟩
    · rw [List.reverse_cons, List.map_append, List.nodup_append]
      refine ⟨h1, by simp, fun a ha x hx => ?_⟩
      simp only [List.map_cons, List.map_nil, List.mem_singleton] at hx
      subst hx
      rintro rfl
      exact hs.1 (by simpa using ha)
    · rw [List.reverse_cons] at e
      rcases List.eq_nil_or_concat h₂ with rfl | ⟨h₃, q, rfl⟩
      · obtain ⟨e1, e2⟩ := List.append_inj' e rfl
        obtain ⟨rfl, rfl⟩ := Prod.mk.inj (List.cons.inj e2).1
        rw [← e1]
        simpa using hs.2.1 b hb
      · rw [List.concat_eq_append, ← List.cons_append, ← List.append_assoc] at e
        exact h2 h₁ d ds h₃ (List.append_inj' e rfl).1 b hb

instance decSoundRev : (h : Hier κ) → Decidable (SoundRev h)
  | [] => isTrue trivial
  | (c, bs) :: older =>
    have := decSoundRev older
    inferInstanceAs (Decidable (c ∉ older.map Prod.fst ∧ (∀ b ∈ bs, b ∈ older.map Prod.fst) ∧
      SoundRev older))

/-! ### The map -/

/-- The template `t` is that of the class `a`: it is named after a module, up to the first `_`, and
a class in it. -/
def TemplateFor (pk : Str → Res (Str → Option κ)) (t : Str) (a : κ) : Prop :=
  ∃ pn cn attrs, t = pn ++ '_' :: cn ∧ '_' ∉ pn ∧ pk pn = .ok attrs ∧ attrs cn = some a

theorem splitFirst_parts {sep : Char} {s a b : Str} (h : splitFirst sep s = some (a, b)) :
    s = a ++ sep :: b ∧ sep ∉ a := by
  induction s generalizing a b with
  | nil => simp [splitFirst] at h
  | cons c cs ih =>
    rw [splitFirst] at h
    split at h
    · rename_i hc
      simp only [Option.some.injEq, Prod.mk.injEq] at h
      obtain ⟨rfl, rfl⟩ := h
      simp [hc]
    · rename_i hc
      obtain ⟨p, hp, e⟩ := Option.map_eq_some_iff.1 h
      obtain ⟨rfl, rfl⟩ := Prod.mk.inj e
      obtain ⟨h1, h2⟩ := ih (a := p.1) (b := p.2) hp
      refine ⟨by rw [List.cons_append, ← h1], ?_⟩
      simp [h2, Ne.symm hc]

theorem splitFirst_append {sep : Char} {a b : Str} (h : sep ∉ a) :
    splitFirst sep (a ++ sep :: b) = some (a, b) := by
  induction a with
  | nil => simp [splitFirst]
  | cons c cs ih =>
    simp only [List.mem_cons, not_or] at h
    simp [splitFirst, ih h.2, Ne.symm h.1]

/-- What composing without an exception does to the entry of each class. -/
theorem composeMap_get {pk : Str → Res (Str → Option κ)} {ts : List Str} {m m' : PyDict κ Str}
    (h : composeMap pk m ts = (m', none)) (a : κ) :
    (m'.get? a = m.get? a ∧ ∀ t ∈ ts, ¬ TemplateFor pk t a) ∨
      ∃ ts₁ t ts₂, ts = ts₁ ++ t :: ts₂ ∧ TemplateFor pk t a ∧ m'.get? a = some t ∧
        ∀ t' ∈ ts₂, ¬ TemplateFor pk t' a := by
  induction ts generalizing m with
  | nil =>
    obtain rfl : m = m' := by simpa [composeMap] using h
    simp
  | cons tn ts ih =>
    rw [composeMap] at h
    split at h
    · rename_i hs
      have hno : ¬ TemplateFor pk tn a := by
        rintro ⟨pn, cn, attrs, rfl, hp, -⟩
        rw [splitFirst_append hp] at hs
        simp at hs
      rcases ih h with ⟨h1, h2⟩ | ⟨ts₁, t, ts₂, rfl, h1⟩
      · exact .inl ⟨h1, fun t ht => by
          rcases List.mem_cons.1 ht with rfl | ht
          · exact hno
          · exact h2 t ht⟩
      · exact .inr ⟨tn :: ts₁, t, ts₂, rfl, h1⟩
    · rename_i pn cn hs
      obtain ⟨rfl, hp⟩ := splitFirst_parts hs
      split at h
      · simp at h
      · rename_i attrs hpk
        split at h
        · simp at h
        · rename_i cc hcc
          have hfor : TemplateFor pk (pn ++ '_' :: cn) a ↔ cc = a := by
            constructor
            · rintro ⟨pn', cn', attrs', e, hp', hpk', hcc'⟩
              have := splitFirst_append (b := cn') hp'
              rw [← e, hs] at this
              simp only [Option.some.injEq, Prod.mk.injEq] at this
              obtain ⟨rfl, rfl⟩ := this
              rw [hpk] at hpk'
              obtain rfl : attrs = attrs' := by simpa using hpk'
              rw [hcc] at hcc'
              simpa using hcc'
            · rintro rfl
              exact ⟨pn, cn, attrs, rfl, hp, hpk, hcc⟩
          rcases ih h with ⟨h1, h2⟩ | ⟨ts₁, t, ts₂, rfl, h1⟩
          · rw [PyDict.get?_set] at h1
            by_cases hca : cc = a
            · refine .inr ⟨[], _, ts, rfl, hfor.2 hca, ?_, h2⟩
              simpa [hca] using h1
            · refine .inl ⟨?_, fun t ht => ?_⟩
              · rw [h1]
                grind
              · rcases List.mem_cons.1 ht with rfl | ht
                · exact fun hf => hca (hfor.1 hf)
                · exact h2 t ht
          · exact .inr ⟨_ :: ts₁, t, ts₂, rfl, h1⟩

/-- **C130.** The template of a class is the last one named after it; a template without `_` in its
name is none of any class. -/
theorem C130_map {pk : Str → Res (Str → Option κ)} {ts : List Str} {m : PyDict κ Str}
    (h : composeMap pk [] ts = (m, none)) (a : κ) (t : Str) :
    m.get? a = some t ↔ ∃ ts₁ ts₂, ts = ts₁ ++ t :: ts₂ ∧ TemplateFor pk t a ∧
      ∀ t' ∈ ts₂, ¬ TemplateFor pk t' a := by
  rcases composeMap_get h a with ⟨h1, h2⟩ | ⟨ts₁, t₁, ts₂, rfl, h1, h2, h3⟩
  · rw [h1]
    constructor
    · simp [PyDict.get?]
    · rintro ⟨ts₁, ts₂, rfl, ht, -⟩
      exact absurd ht (h2 t (by simp))
  · rw [h2]
    constructor
    · rintro e
      obtain rfl : t₁ = t := by simpa using e
      exact ⟨ts₁, ts₂, rfl, h1, h3⟩
    · rintro ⟨ts₃, ts₄, e, ht, h4⟩
      rcases List.append_eq_append_iff.1 e with ⟨as, e1, e2⟩ | ⟨as, e1, e2⟩
      · cases as with
        | nil => simp_all
        | cons x xs =>
          simp only [List.cons_append, List.cons.injEq] at e2
          exact absurd ht (h3 t (by rw [e2.2]; simp))
      · cases as with
        | nil => simp_all
        | cons x xs =>
          simp only [List.cons_append, List.cons.injEq] at e2
          exact absurd h1 (h4 t₁ (by rw [e2.2]; simp))

theorem composeMap_exists {pk : Str → Res (Str → Option κ)} {ts : List Str} {m : PyDict κ Str}
    (h : composeMap pk [] ts = (m, none)) (a : κ) :
    m.get? a = none ↔ ∀ t ∈ ts, ¬ TemplateFor pk t a := by
  rcases composeMap_get h a with ⟨h1, h2⟩ | ⟨ts₁, t₁, ts₂, rfl, h1, h2, h3⟩
  · simp [h1, PyDict.get?]
    exact h2
  · rw [h2]
    simp only [reduceCtorEq, false_iff]
    intro hn
    exact hn t₁ (by simp) h1

/-! ### Resolving -/

theorem firstTemplate_some {tm : PyDict κ Str} {order : List κ} {t : Str}
    (h : firstTemplate tm order = some t) :
    ∃ l₁ a l₂, order = l₁ ++ a :: l₂ ∧ tm.get? a = some t ∧ ∀ b ∈ l₁, tm.get? b = none := by
  induction order with
  | nil => simp [firstTemplate] at h
  | cons x xs ih =>
    rw [firstTemplate] at h
    split at h
    · rename_i t' ht
      obtain rfl : t' = t := by simpa using h
      exact ⟨[], x, xs, rfl, ht, by simp⟩
    · rename_i ht
      obtain ⟨l₁, a, l₂, rfl, h1, h2⟩ := ih h
      refine ⟨x :: l₁, a, l₂, rfl, h1, fun b hb => ?_⟩
      rcases List.mem_cons.1 hb with rfl | hb
      · exact ht
      · exact h2 b hb

theorem firstTemplate_none {tm : PyDict κ Str} {order : List κ} :
    firstTemplate tm order = none ↔ ∀ a ∈ order, tm.get? a = none := by
  induction order with
  | nil => simp [firstTemplate]
  | cons x xs ih =>
    rw [firstTemplate]
    cases hx : tm.get? x <;> simp [hx, ih]

theorem resolve_composed {pk : Str → Res (Str → Option κ)} {ts : List Str} {m : PyDict κ Str}
    (hm : composeMap pk [] ts = (m, none)) (order : List κ) :
    (resolveTemplate pk ts [] order).1 =
      match firstTemplate m order with
      | some t => .ok t
      | none => .error (.other "Exception") := by
  rw [resolveTemplate, templateMap]
  simp only [ne_eq, not_true_eq_false, if_false, hm]
  cases firstTemplate m order <;> rfl

/-- **C130.** The template that is found for a class is that of a superclass or of the class itself,
and no other superclass with a template is more specific than that one. -/
theorem C130_specific {h : Hier κ} (hs : h.Sound) {c : κ} {order : List κ}
    (ho : mro h c = some order) {pk : Str → Res (Str → Option κ)} {ts : List Str}
    {m : PyDict κ Str} (hm : composeMap pk [] ts = (m, none)) {t : Str}
    (ht : (resolveTemplate pk ts [] order).1 = .ok t) :
    ∃ a, h.IsSub c a ∧ t ∈ ts ∧ TemplateFor pk t a ∧
      ∀ b, h.IsSub c b → ∀ t' ∈ ts, TemplateFor pk t' b → ¬ h.Below b a := by
  obtain ⟨-, hnd, hmem, hord⟩ := mro_spec hs ho
  rw [resolve_composed hm] at ht
  cases hf : firstTemplate m order with
  | none => simp [hf] at ht
  | some t' =>
    obtain rfl : t' = t := by simpa [hf] using ht
    obtain ⟨l₁, a, l₂, e, h1, h2⟩ := firstTemplate_some hf
    obtain ⟨ts₁, ts₂, e2, h3, -⟩ := (C130_map hm a t').1 h1
    refine ⟨a, (hmem a).1 (by rw [e]; simp), by rw [e2]; simp, h3, fun b hb t₂ ht₂ hf₂ hba => ?_⟩
    have hbo := (hmem b).2 hb
    have hsub := hord b a hbo hba
    have hbn : m.get? b ≠ none := fun hn => (composeMap_exists hm b).1 hn t₂ ht₂ hf₂
    rw [e] at hsub hnd hbo
    rcases List.mem_append.1 hbo with hb1 | hb2
    · exact hbn (h2 b hb1)
    · have hsub' : [b, a].Sublist (a :: l₂) := by
        obtain ⟨s₁, s₂, es, hs₁, hs₂⟩ := List.sublist_append_iff.1 hsub
        cases s₁ with
        | nil =>
          rw [List.nil_append] at es
          rw [es]
          exact hs₂
        | cons x xs =>
          have hx : x = b := by simpa using (List.cons.inj es).1.symm
          have : b ∈ l₁ := hs₁.subset (by simp [hx])
          exact absurd (h2 b this) hbn
      have hnd' : (a :: l₂).Nodup := (List.nodup_append.1 hnd).2.1
      have := hsub'.nodup hnd'
      rcases List.sublist_cons_iff.1 hsub' with h5 | ⟨r, h5, h6⟩
      · exact (List.nodup_cons.1 hnd').1 (h5.subset (by simp))
      · obtain ⟨rfl, rfl⟩ := List.cons.inj h5
        simp at this

/-- **C130.** It raises exactly for a class that has no superclass with a template. -/
theorem C130_raises {h : Hier κ} (hs : h.Sound) {c : κ} {order : List κ}
    (ho : mro h c = some order) {pk : Str → Res (Str → Option κ)} {ts : List Str}
    {m : PyDict κ Str} (hm : composeMap pk [] ts = (m, none)) :
    (∃ e, (resolveTemplate pk ts [] order).1 = .error e) ↔
      ∀ a, h.IsSub c a → ∀ t ∈ ts, ¬ TemplateFor pk t a := by
  obtain ⟨-, -, hmem, -⟩ := mro_spec hs ho
  rw [resolve_composed hm]
  have : (∃ e, (match firstTemplate m order with
      | some t => Except.ok t
      | none => Except.error (PyErr.other "Exception")) = Except.error e) ↔
      firstTemplate m order = none := by
    cases firstTemplate m order <;> simp
  rw [this, firstTemplate_none]
  constructor
  · intro hn a ha
    exact (composeMap_exists hm a).1 (hn a ((hmem a).2 ha))
  · intro hn a ha
    exact (composeMap_exists hm a).2 (hn a ((hmem a).1 ha))

/-- **C131.** Calling it again gives the same. -/
def C131_full : Prop :=
  ∀ (pk : Str → Res (Str → Option String)) (ts : List Str),
    templateMap pk ts (templateMap pk ts []).2 = templateMap pk ts []

/-- **C131.** What a second call gives: the map of the first, if that gave one; the same exception,
if no template had been stored; and otherwise the incomplete map, without an exception. -/
theorem C131_exact (pk : Str → Res (Str → Option κ)) (ts : List Str) :
    templateMap pk ts (templateMap pk ts []).2 =
      if (templateMap pk ts []).2 = [] then templateMap pk ts []
      else (.ok (templateMap pk ts []).2, (templateMap pk ts []).2) := by
  generalize hm : (templateMap pk ts []).2 = m
  split
  · rename_i he
    rw [he]
  · rename_i he
    rw [templateMap, if_pos he]

/-- **C131**, where composing the map succeeds: any number of calls give that map. -/
theorem C131_partial (pk : Str → Res (Str → Option κ)) (ts : List Str) {m : PyDict κ Str}
    (h : (templateMap pk ts []).1 = .ok m) :
    templateMap pk ts [] = (.ok m, m) ∧ templateMap pk ts m = (.ok m, m) := by
  have h1 : templateMap pk ts [] = (.ok m, m) := by
    rw [templateMap] at h ⊢
    simp only [ne_eq, not_true_eq_false, if_false] at h ⊢
    split at h
    · rename_i m' hc
      obtain rfl : m' = m := by simpa using h
      rfl
    · simp at h
  refine ⟨h1, ?_⟩
  by_cases hm : m = []
  · rw [hm] at h1 ⊢
    exact h1
  · rw [templateMap, if_pos hm]

end

/-! ### The package -/

theorem changeClasses_sound : changeClasses.Sound := by
  have : SoundRev changeClasses.reverse := by decide +kernel
  simpa using sound_of_soundRev this

/-- **C130.** For each change of the package there is a template. -/
theorem C130_package : ∀ c ∈ changeClasses.map Prod.fst, ∃ order t,
    mro changeClasses c = some order ∧
      (resolveTemplate packageModule packageTemplates [] order).1 = .ok t := by
  have : ∀ c ∈ changeClasses.map Prod.fst, (match mro changeClasses c with
      | none => false
      | some order =>
        match (resolveTemplate packageModule packageTemplates [] order).1 with
        | .ok _ => true
        | .error _ => false) = true := by decide +kernel
  intro c hc
  have := this c hc
  split at this
  · simp at this
  · rename_i order ho
    split at this
    · rename_i t ht
      exact ⟨order, t, ho, ht⟩
    · simp at this

/-- The template map of the package is composed without an exception. -/
theorem package_composed :
    (composeMap packageModule ([] : PyDict String Str) packageTemplates).2 = none := by
  decide +kernel

/-- `JarContentAdded` is a `JarContentChange` and an `Addition`; the first base decides. -/
example : mro changeClasses "JarClassAdded" = some ["JarClassAdded", "JarContentAdded",
      "JarContentChange", "SuperChange", "GenericChange", "Addition", "Change"] ∧
    (resolveTemplate packageModule packageTemplates [] ["JarClassAdded", "JarContentAdded",
      "JarContentChange", "SuperChange", "GenericChange", "Addition", "Change"]).1 =
      .ok "jardiff_JarContentChange".toList := by
  decide +kernel

/-- There `Addition` comes before the common base, and has the template. -/
example : mro changeClasses "ManifestSectionAdded" = some ["ManifestSectionAdded",
      "ManifestSectionChange", "GenericChange", "Addition", "Change"] ∧
    (resolveTemplate packageModule packageTemplates [] ["ManifestSectionAdded",
      "ManifestSectionChange", "GenericChange", "Addition", "Change"]).1 =
      .ok "change_Addition".toList := by
  decide +kernel

/-- An inconsistent order of bases. -/
example : mro [("A", []), ("B", ["A"]), ("C", ["A", "B"])] "C" = none := by decide +kernel

/-- **C131** fails: with a template that is left over from another version of the package, the first
call raises and the second gives an incomplete map. -/
theorem C131_full_fails : ¬ C131_full := by
  intro h
  have := h packageModule ["change_Addition".toList, "change_Gone".toList, "change_Change".toList]
  revert this
  decide +kernel

end Javatools
