import Verif.Model.DistDiff
import Verif.Props.Change
/-
Changes depend on the flags among the options only through the attributes: not on how the namespace came
about.
-/
namespace Javatools

/-- Rules that do not tell related options apart. -/
def IgnoreRule.Resp {O : Type} (R : O → O → Prop) : IgnoreRule O → Prop
  | .inherit => True
  | .only rule => ∀ o o', R o o' → rule o = rule o'
  | .orElse rule => ∀ o o', R o o' → rule o = rule o'

namespace Change

/-- Changes that do not. -/
inductive Resp {O : Type} (R : O → O → Prop) : Change O → Prop where
  | leaf {h cmp changed desc} : h.ign.Resp R → Resp R (.leaf h cmp changed desc)
  | super {h short changed desc children} : h.ign.Resp R → (∀ c ∈ children, Resp R c) →
      Resp R (.super h short changed desc children)
  | squashed {h oc changed desc ignored} : Resp R (.squashed h oc changed desc ignored)

variable {O : Type} {R : O → O → Prop}

theorem isIgnored_resp {o o' : O} (hr : R o o') : (c : Change O) → Resp R c → c.isIgnored o = c.isIgnored o'
  | .leaf h cmp changed desc, hc => by
    cases hc with
    | leaf hi =>
      simp only [isIgnored]
      cases hg : h.ign <;> rw [hg] at hi <;> simp only [IgnoreRule.Resp] at hi <;> simp only <;>
        rw [hi o o' hr]
  | .super h short changed desc children, hc => by
    cases hc with
    | super hi hs =>
      have hall : ∀ cs : List (Change O), (∀ c ∈ cs, c ∈ children) → allIgnored o cs = allIgnored o' cs := by
        intro cs hcs
        induction cs with
        | nil => rfl
        | cons c cs ih =>
          have hm := hcs c List.mem_cons_self
          have : sizeOf c < sizeOf children := List.sizeOf_lt_of_mem hm
          simp only [allIgnored]
          rw [isIgnored_resp hr c (hs c hm), ih fun x hx => hcs x (List.mem_cons_of_mem _ hx)]
      simp only [isIgnored]
      rw [hall children fun _ h => h]
      cases hg : h.ign <;> rw [hg] at hi <;> simp only [IgnoreRule.Resp] at hi <;> simp only <;>
        rw [hi o o' hr]
  | .squashed .., _ => rfl
termination_by c => sizeOf c

theorem indent_resp {o o' : O} (hr : R o o') (s : ShowOpts) : (c : Change O) → Resp R c → (n : Nat) →
    indentChange o s n c = indentChange o' s n c
  | .leaf h cmp changed desc, hc, n => by
    simp only [indentChange]
    rw [isIgnored_resp hr _ hc]
  | .super h short changed desc children, hc, n => by
    have hign := isIgnored_resp hr _ hc
    cases hc with
    | super hi hs =>
      have hall : ∀ cs : List (Change O), (∀ c ∈ cs, c ∈ children) →
          indentAll o s (n + 1) cs = indentAll o' s (n + 1) cs := by
        intro cs hcs
        induction cs with
        | nil => rfl
        | cons c cs ih =>
          have hm := hcs c List.mem_cons_self
          have : sizeOf c < sizeOf children := List.sizeOf_lt_of_mem hm
          simp only [indentAll]
          rw [indent_resp hr s c (hs c hm), ih fun x hx => hcs x (List.mem_cons_of_mem _ hx)]
      simp only [indentChange]
      rw [hall children fun _ h => h, hign]
  | .squashed .., _, _ => rfl
termination_by c => sizeOf c

theorem textReport_resp {o o' : O} (hr : R o o') (s : ShowOpts) {c : Change O} (hc : Resp R c) :
    c.textReport o s = c.textReport o' s := by
  unfold textReport
  rw [indent_resp hr s c hc]

theorem toJson_resp {o o' : O} (hr : R o o') (s : ShowOpts) : (c : Change O) → Resp R c →
    c.toJson o s = c.toJson o' s
  | .leaf h cmp changed desc, hc => by
    simp only [toJson]
    rw [isIgnored_resp hr _ hc]
  | .super h short changed desc children, hc => by
    have hign := isIgnored_resp hr _ hc
    cases hc with
    | super hi hs =>
      have hall : ∀ cs : List (Change O), (∀ c ∈ cs, c ∈ children) →
          toJsonKept o s cs = toJsonKept o' s cs := by
        intro cs hcs
        induction cs with
        | nil => rfl
        | cons c cs ih =>
          have hm := hcs c List.mem_cons_self
          have : sizeOf c < sizeOf children := List.sizeOf_lt_of_mem hm
          simp only [toJsonKept]
          rw [toJson_resp hr s c (hs c hm), isIgnored_resp hr c (hs c hm),
            ih fun x hx => hcs x (List.mem_cons_of_mem _ hx)]
      simp only [toJson]
      rw [hall children fun _ h => h, hign]
  | .squashed .., _ => rfl
termination_by c => sizeOf c

theorem exitStatus_resp {o o' : O} (hr : R o o') {c : Change O} (hc : Resp R c) :
    c.exitStatus o = c.exitStatus o' := by
  unfold exitStatus
  rw [isIgnored_resp hr c hc]

theorem check_resp : (c : Change O) → Resp R c → {c' : Change O} → c.check = .ok c' → Resp R c'
  | .leaf h none changed desc, hc, c', e => by
    simp only [check] at e
    rw [← Except.ok.inj e]
    exact hc
  | .leaf h (some r) changed desc, hc, c', e => by
    cases hc with
    | leaf hi =>
      cases r with
      | error x => simp [check] at e
      | ok p =>
        simp only [check] at e
        rw [← Except.ok.inj e]
        exact .leaf hi
  | .super h (some b) changed desc children, hc, c', e => by
    cases hc with
    | super hi hs =>
      simp only [check] at e
      rw [← Except.ok.inj e]
      exact .super hi hs
  | .super h none changed desc children, hc, c', e => by
    cases hc with
    | super hi hs =>
      have hall : ∀ (cs : List (Change O)) (b : Bool) (cs' : List (Change O)) (b' : Bool),
          (∀ c ∈ cs, c ∈ children) → checkAll cs b = .ok (cs', b') → ∀ c ∈ cs', Resp R c := by
        intro cs
        induction cs with
        | nil =>
          intro b cs' b' _ h
          simp only [checkAll] at h
          rw [← (Prod.mk.inj (Except.ok.inj h)).1]
          simp
        | cons c cs ih =>
          intro b cs' b' hcs h
          have hm := hcs c List.mem_cons_self
          have : sizeOf c < sizeOf children := List.sizeOf_lt_of_mem hm
          simp only [checkAll] at h
          cases hx : check c with
          | error x => simp [hx] at h
          | ok x =>
            have h1 := check_resp c (hs c hm) hx
            simp only [hx] at h
            cases hy : checkAll cs (b || x.isChange) with
            | error y => simp [hy] at h
            | ok y =>
              simp only [hy] at h
              rw [← (Prod.mk.inj (Except.ok.inj h)).1]
              intro z hz
              rcases List.mem_cons.1 hz with rfl | hz
              · exact h1
              · exact ih _ _ _ (fun x hx => hcs x (List.mem_cons_of_mem _ hx)) hy z hz
      simp only [check] at e
      cases hx : checkAll children false with
      | error x => simp [hx] at e
      | ok x =>
        simp only [hx] at e
        rw [← Except.ok.inj e]
        exact .super hi (hall _ _ _ _ (fun _ h => h) hx)
  | .squashed .., _, c', e => by
    simp only [check] at e
    rw [← Except.ok.inj e]
    exact .squashed
termination_by c => sizeOf c

theorem comap_resp {P : Type} {Q : P → P → Prop} {f : P → O} (hf : ∀ p p', Q p p' → R (f p) (f p')) :
    (c : Change O) → Resp R c → Resp Q (c.comap f)
  | .leaf h cmp changed desc, hc => by
    cases hc with
    | leaf hi =>
      refine .leaf ?_
      unfold Hdr.comap
      cases hg : h.ign <;> rw [hg] at hi <;> simp only [IgnoreRule.comap, IgnoreRule.Resp] at hi ⊢ <;>
        exact fun o o' ho => hi _ _ (hf _ _ ho)
  | .super h short changed desc children, hc => by
    cases hc with
    | super hi hs =>
      have hall : ∀ cs : List (Change O), (∀ c ∈ cs, c ∈ children) → ∀ c ∈ comapAll f cs, Resp Q c := by
        intro cs hcs
        induction cs with
        | nil => simp [comapAll]
        | cons c cs ih =>
          have hm := hcs c List.mem_cons_self
          have : sizeOf c < sizeOf children := List.sizeOf_lt_of_mem hm
          have h1 := comap_resp hf c (hs c hm)
          intro x hx
          simp only [comapAll, List.mem_cons] at hx
          rcases hx with rfl | hx
          · exact h1
          · exact ih (fun x hx => hcs x (List.mem_cons_of_mem _ hx)) x hx
      refine .super ?_ (hall children fun _ h => h)
      unfold Hdr.comap
      cases hg : h.ign <;> rw [hg] at hi <;> simp only [IgnoreRule.comap, IgnoreRule.Resp] at hi ⊢ <;>
        exact fun o o' ho => hi _ _ (hf _ _ ho)
  | .squashed .., _ => .squashed
termination_by c => sizeOf c

end Change

/-- The same attributes. -/
def SameFlags (o o' : Opts) : Prop := ∀ name, o.attr name = o'.attr name

/-- The same attributes and the same patterns. -/
structure SameOpts (o o' : DiffOpts) : Prop where
  flags : SameFlags o.flags o'.flags
  keys : o.manifestKeys = o'.manifestKeys
  entries : o.jarEntries = o'.jarEntries
  files : o.filenames = o'.filenames

open Change

/-! ### Classes -/

theorem generic_resp {name label : String} {ign : IgnoreRule Opts} {d : Res Bool} {a b : Res Str}
    (h : ign.Resp SameFlags) : Resp SameFlags (genericLeaf name label ign d a b) := .leaf h

theorem attr_resp (name : String) : (IgnoreRule.only fun o : Opts => o.attr name).Resp SameFlags :=
  fun _ _ h => h name

theorem version_resp (l r : ClassInfo) : (IgnoreRule.only (versionIgnored l r)).Resp SameFlags := by
  intro o o' h
  unfold versionIgnored
  rw [h "ignore_version_up", h "ignore_version_down"]

section
variable (T : Texts) (lim depth : Nat)

theorem raises_resp (e : PyErr) : ∀ c ∈ raises e, Resp SameFlags c := by
  intro c hc
  simp only [raises, List.mem_singleton] at hc
  rw [hc]
  exact .leaf trivial

theorem code_resp (lp rp : Pool) (l r : Option CodeInfo) : ∀ c ∈ codeChildren T lim lp rp l r, Resp SameFlags c := by
  simp only [codeChildren, List.forall_mem_cons, List.not_mem_nil, false_imp_iff, implies_true, and_true]
  refine ⟨?_, ?_, ?_, ?_, ?_, ?_, ?_⟩ <;> first
    | exact .leaf trivial
    | exact .leaf fun _ _ h => by simp only [h _]

theorem methodCode_resp (lp rp : Pool) (l r : Option CodeInfo) :
    Resp SameFlags (methodCodeChange T lim lp rp l r) := by
  unfold methodCodeChange
  split
  · exact .super trivial (by simp)
  · exact .super trivial (code_resp T lim lp rp _ _)
  · exact .super trivial (code_resp T lim lp rp _ _)

theorem method_resp (lp rp : Pool) (l r : Member) :
    ∀ c ∈ methodChildren T lim depth lp rp l r, Resp SameFlags c := by
  unfold methodChildren
  split
  · exact raises_resp _
  · split
    · exact raises_resp _
    · simp only [List.forall_mem_cons, List.not_mem_nil, false_imp_iff, implies_true, and_true]
      refine ⟨?_, ?_, ?_, ?_, ?_, ?_, ?_, ?_, ?_, ?_, ?_⟩ <;> first
        | exact generic_resp trivial
        | exact generic_resp (attr_resp _)
        | exact methodCode_resp ..

theorem field_resp (lp rp : Pool) (l r : Member) :
    ∀ c ∈ fieldChildren T lim depth lp rp l r, Resp SameFlags c := by
  simp only [fieldChildren, List.forall_mem_cons, List.not_mem_nil, false_imp_iff, implies_true, and_true]
  refine ⟨?_, ?_, ?_, ?_, ?_, ?_, ?_, ?_⟩ <;> first
    | exact generic_resp trivial
    | exact generic_resp (attr_resp _)

theorem members_resp {name label what : String} {children : Member → Member → List (Change Opts)}
    {lp rp : Pool} {ls rs : List Member} (h : ∀ l r, ∀ c ∈ children l r, Resp SameFlags c) :
    Resp SameFlags (membersChange T lim name label what children lp rp ls rs) := by
  refine .super trivial ?_
  split
  · exact raises_resp _
  · intro c hc
    obtain ⟨d, -, rfl⟩ := List.mem_map.1 hc
    cases d with
    | added r => exact .leaf trivial
    | removed l => exact .leaf trivial
    | changed l r => exact .super trivial (h l r)

theorem javaClass_resp (l r : ClassInfo) : Resp SameFlags (javaClassChange T lim depth l r) := by
  refine .super trivial ?_
  simp only [classChildren, List.forall_mem_cons, List.not_mem_nil, false_imp_iff, implies_true, and_true]
  refine ⟨.super trivial ?_, generic_resp trivial, generic_resp trivial, .leaf (attr_resp _),
    members_resp T lim (field_resp T lim depth l.pool r.pool),
    members_resp T lim (method_resp T lim depth l.pool r.pool)⟩
  simp only [List.forall_mem_cons, List.not_mem_nil, false_imp_iff, implies_true, and_true]
  refine ⟨?_, ?_, ?_, ?_, ?_, ?_, ?_, ?_⟩ <;> first
    | exact generic_resp trivial
    | exact generic_resp (attr_resp _)
    | exact generic_resp (version_resp l r)
end

/-! ### Manifests -/

theorem orRaise_resp {O : Type} {R : O → O → Prop} {x : Res (List (Change O))}
    (h : ∀ cs, x = .ok cs → ∀ c ∈ cs, Resp R c) : ∀ c ∈ orRaise x, Resp R c := by
  cases x with
  | error e =>
    intro c hc
    simp only [orRaise, raising, List.mem_singleton] at hc
    rw [hc]
    exact .leaf trivial
  | ok cs => exact h cs rfl

theorem manifestChildren_resp (order : List Str → List Str) (text : Section → Str) (l r : Manifest) :
    ∀ c ∈ manifestChildren order text l r, Resp SameOpts c := by
  intro c hc
  unfold manifestChildren at hc
  rcases List.mem_append.1 hc with hc | hc
  · rcases List.mem_append.1 hc with hc | hc
    · rcases List.mem_cons.1 hc with rfl | hc
      · exact .leaf fun o o' h => by simp only [h.keys]
      · obtain ⟨s, -, rfl⟩ := List.mem_map.1 hc
        exact .leaf fun o o' h => by simp only [DiffOpts.attr, h.keys, h.flags _]; rfl
    · obtain ⟨s, -, rfl⟩ := List.mem_map.1 hc
      exact .leaf fun o o' h => by simp only [DiffOpts.attr, h.flags _]
  · obtain ⟨s, -, rfl⟩ := List.mem_map.1 hc
    exact .leaf fun o o' h => by simp only [DiffOpts.attr, h.flags _]

theorem manifest_resp (order : List Str → List Str) (text : Section → Str) (l r : Manifest) :
    Resp SameOpts (manifestChange order text l r) :=
  .super (fun o o' h => by simp only [DiffOpts.attr, h.flags _]) (manifestChildren_resp order text l r)

theorem signatureManifest_resp (order : List Str → List Str) (text : Section → Str) (l r : Manifest) :
    Resp SameOpts (signatureManifestChange order text l r) :=
  .super (fun o o' h => by simp only [DiffOpts.attr, h.flags _]) (manifestChildren_resp order text l r)

theorem classOpts_resp (T : Texts) (lim depth : Nat) (l r : ClassInfo) :
    Resp SameOpts ((javaClassChange T lim depth l r).comap DiffOpts.flags) :=
  comap_resp (fun _ _ h => h.flags) _ (javaClass_resp T lim depth l r)

/-! ### JARs -/

theorem entryIgnored_resp (entry : Str) {o o' : DiffOpts} (h : SameOpts o o') :
    entryIgnored entry o = entryIgnored entry o' := by unfold entryIgnored; rw [h.entries]

theorem signatureIgnored_resp {o o' : DiffOpts} (h : SameOpts o o') :
    signatureIgnored o = signatureIgnored o' := h.flags _

theorem jarContent_resp {name label : String} {ign : IgnoreRule DiffOpts} {entry : Str} {b : Bool}
    {cs : List (Change DiffOpts)} (hi : ign.Resp SameOpts) (h : ∀ c ∈ cs, Resp SameOpts c) :
    Resp SameOpts (jarContent name label ign entry b cs) := by
  refine .super hi ?_
  cases b
  · simp
  · exact h

theorem readBoth_resp {α : Type} {x : Res α} {f : α → List (Change DiffOpts)}
    (h : ∀ p, ∀ c ∈ f p, Resp SameOpts c) : ∀ c ∈ orRaise (x.map f), Resp SameOpts c := by
  refine orRaise_resp fun cs e => ?_
  cases x with
  | error y => simp [Except.map] at e
  | ok p =>
    rw [← Except.ok.inj e]
    exact h p

theorem jarEntry_resp (E : JarEnv) (l r : Archive) (ev : Event × Str) :
    Resp SameOpts (jarEntryChange E l r ev) := by
  obtain ⟨ev, entry⟩ := ev
  have hm : ∀ b, Resp SameOpts (jarManifestChange E l r entry b) := fun b =>
    jarContent_resp (fun _ _ => entryIgnored_resp entry) (readBoth_resp fun p c hc => by
      rw [List.mem_singleton] at hc; rw [hc]; exact manifest_resp ..)
  have hs : ∀ b, Resp SameOpts (jarSignatureFileChange E l r entry b) := fun b =>
    jarContent_resp (fun _ _ => signatureIgnored_resp) (readBoth_resp fun p c hc => by
      rw [List.mem_singleton] at hc; rw [hc]; exact signatureManifest_resp ..)
  have hb : ∀ b, Resp SameOpts (jarSignatureBlockFileChange l r entry b) := fun b =>
    jarContent_resp (fun _ _ => signatureIgnored_resp) (readBoth_resp fun p c hc => by
      rw [List.mem_singleton] at hc; rw [hc]; exact .leaf trivial)
  have hc : ∀ b, Resp SameOpts (jarClassChange E l r entry b) := fun b =>
    jarContent_resp (fun _ _ => entryIgnored_resp entry) (readBoth_resp fun p c hc => by
      rw [List.mem_singleton] at hc; rw [hc]; exact classOpts_resp ..)
  have hg : ∀ b, Resp SameOpts (jarGenericFileChange l r entry b) := fun b =>
    jarContent_resp (fun _ _ => entryIgnored_resp entry) (readBoth_resp fun p c hc => by
      rw [List.mem_singleton] at hc; rw [hc]; exact .leaf trivial)
  have ho : ∀ name label kind, Resp SameOpts (jarOneSided name label kind (.orElse (entryIgnored entry)) entry) :=
    fun name label kind => .super (fun _ _ => entryIgnored_resp entry) (by simp)
  have hs1 : ∀ name label kind, Resp SameOpts (jarOneSided name label kind (.only signatureIgnored) entry) :=
    fun name label kind => .super (fun _ _ => signatureIgnored_resp) (by simp)
  cases ev <;> simp only [jarEntryChange] <;> (repeat' split) <;>
    first
    | exact hm _ | exact hs _ | exact hb _ | exact hc _ | exact hg _ | exact ho .. | exact hs1 ..
    | exact jarContent_resp (fun _ _ => entryIgnored_resp entry) (by simp)

theorem iterate_resp {K O : Type} [DecidableEq K] {R : O → O → Prop} {f : Change O → K} {cs : List (Change O)}
    {ks : List K} (h : ∀ c ∈ cs, Resp R c) : ∀ c ∈ iterateByType f cs ks, Resp R c := by
  intro c hc
  exact h c ((C37_permutation ..).mem_iff.1 hc)

theorem jar_resp (E : JarEnv) (l r : Archive) : Resp SameOpts (jarChange E l r) := by
  unfold jarChange
  refine .super trivial ?_
  simp only [List.forall_mem_cons, List.not_mem_nil, false_imp_iff, implies_true, and_true]
  refine ⟨.leaf trivial, .super trivial (orRaise_resp fun cs e => ?_)⟩
  unfold jarContentsChildren at e
  split at e
  · simp at e
  · rw [← Except.ok.inj e]
    refine iterate_resp fun c hc => ?_
    obtain ⟨ev, -, rfl⟩ := List.mem_map.1 hc
    exact jarEntry_resp E l r ev

/-! ### Distributions -/

theorem filenameIgnored_resp (entry : Str) {o o' : DiffOpts} (h : SameOpts o o') :
    filenameIgnored entry o = filenameIgnored entry o' := by unfold filenameIgnored; rw [h.files]

theorem distEntry_resp (E : DistEnv) (l r : Forest) (shallow : Bool) (ev : Event × Str) :
    Resp SameOpts (distEntryChange E l r shallow ev) := by
  obtain ⟨ev, entry⟩ := ev
  have hf : ∀ o o', SameOpts o o' → filenameIgnored entry o = filenameIgnored entry o' :=
    fun _ _ => filenameIgnored_resp entry
  have hm : ∀ b, Resp SameOpts (distManifestChange E l r entry b) := by
    intro b
    refine .super hf ?_
    cases b
    · simp
    · exact readBoth_resp fun p c hc => by
        rw [List.mem_singleton] at hc; rw [hc]; exact manifest_resp ..
  have hj : ∀ b, Resp SameOpts (distJarChange E l r entry b) := by
    intro b
    refine .super hf ?_
    cases b
    · simp
    · exact readBoth_resp fun p c hc => by
        rw [List.mem_singleton] at hc; rw [hc]; exact jar_resp ..
  have hc : ∀ b, Resp SameOpts (distClassChange E l r entry b) := by
    intro b
    refine .super hf ?_
    cases b
    · simp
    · exact readBoth_resp fun p c hc => by
        rw [List.mem_singleton] at hc; rw [hc]; exact classOpts_resp ..
  have ht : ∀ b, Resp SameOpts (distTextChange l r entry b) := by
    intro b
    refine .super ?_ (orRaise_resp fun cs e => ?_)
    · intro o o' h
      simp only [hf o o' h]
      simp only [DiffOpts.attr, h.flags _]
    · split at e
      · simp at e
      · split at e
        · simp at e
        · rw [← Except.ok.inj e]
          split
          · intro c hc
            rw [List.mem_singleton] at hc
            rw [hc]
            exact .leaf trivial
          · simp
  have ho : ∀ name label kind, Resp SameOpts (distOneSided name label kind entry) :=
    fun name label kind => .super hf (by simp)
  have hd : ∀ name label b, Resp SameOpts (distContent name label (.orElse (filenameIgnored entry)) entry b []) :=
    fun name label b => .super hf (by simp)
  simp only [distEntryChange]
  (repeat' split) <;> first
    | exact hm _ | exact hj _ | exact hc _ | exact ht _ | exact ho .. | exact hd ..

theorem dist_resp (E : DistEnv) (l r : Forest) (shallow : Bool) : Resp SameOpts (distChange E l r shallow) := by
  refine .super trivial (orRaise_resp fun cs e => ?_)
  unfold distChildren at e
  split at e
  · simp at e
  · rw [← Except.ok.inj e]
    refine iterate_resp fun c hc => ?_
    obtain ⟨ev, -, rfl⟩ := List.mem_map.1 hc
    exact distEntry_resp E l r shallow ev

end Javatools
