import Verif.Model.Info
import Verif.Proofs.Dict
import Verif.Proofs.Dir
import Verif.Props.Member
import Verif.Props.Glob
import Verif.Props.DistDiff
/-
C65, C66 and C78: the symbols that JARs and distributions provide and require.
-/
namespace Javatools

/-! ### What the symbols are -/

/-- The class offers the symbol: itself, or a field or method (public unless `priv`). -/
def Offers (lim : Nat) (c : ClassInfo) (priv : Bool) (s : Str) : Prop :=
  ∃ me, c.getThis lim = .ok (.str me) ∧ (s = prettyClass me ∨ ∃ m ∈ c.fields ++ c.methods,
    (priv = true ∨ m.access.testBit 0 = true) ∧
    ∃ i, m.prettyIdentifier c.pool lim = .ok i ∧ s = prettyClass me ++ ".".toList ++ i)

/-- The class needs the symbol: a constant names it and the class does not have it itself. -/
def Needs (lim : Nat) (c : ClassInfo) (s : Str) : Prop :=
  s ≠ [] ∧ (∃ i k, 1 ≤ i ∧ c.pool[i]? = some (some k) ∧ k.isApi = true ∧
    apiSymbol c.pool lim k = .ok (some s)) ∧ ¬ Offers lim c true s

/-- `n` is a class in the archive. -/
def JarClass (lim : Nat) (a : Archive) (n : Str) (c : ClassInfo) : Prop :=
  (∃ e ∈ a.entries, e.name = n) ∧ ".class".toList <:+ n ∧
    ∃ x, a.openRead n = .ok x ∧ unpackPayload lim x = .ok c

def JarNeeds (lim : Nat) (a : Archive) (s n : Str) : Prop := ∃ c, JarClass lim a n c ∧ Needs lim c s

def JarOffers (lim : Nat) (a : Archive) (priv : Bool) (s n : Str) : Prop :=
  ∃ c, JarClass lim a n c ∧ Offers lim c priv s

/-- Some class in the archive needs it and none has it. -/
def JarExternal (lim : Nat) (a : Archive) (s : Str) : Prop :=
  (∃ n, JarNeeds lim a s n) ∧ ¬ ∃ n, JarOffers lim a true s n

/-- Some non-empty pattern matches. -/
def Ignored (ig : List Str) (s : Str) : Prop := ∃ g ∈ ig, g ≠ [] ∧ Glob g s

/-! ### Lemmas -/

theorem requiresLoop_mem {pool : Pool} {lim : Nat} {provided : List Str} {rest : Pool} {i : Nat}
    {l : List Str} (h : requiresLoop pool lim provided i rest = .ok l) (s : Str) :
    s ∈ l ↔ s ≠ [] ∧ s ∉ provided ∧ ∃ k, some k ∈ rest ∧ k.isApi = true ∧
      apiSymbol pool lim k = .ok (some s) := by
  induction rest generalizing i l with
  | nil => simp only [requiresLoop, Except.ok.injEq] at h; subst h; simp
  | cons x rest ih =>
    cases x with
    | none =>
      rw [ih (i := i + 1) h]
      simp
    | some k =>
      simp only [requiresLoop, bind, Except.bind] at h
      cases hd : deref pool lim i with
      | error e => rw [hd] at h; cases h
      | ok v =>
        rw [hd] at h
        simp only at h
        by_cases hk : k.isApi = true
        · rw [if_pos hk] at h
          cases ha : apiSymbol pool lim k with
          | error e => rw [ha] at h; cases h
          | ok o =>
            rw [ha] at h
            simp only at h
            cases hm : requiresLoop pool lim provided (i + 1) rest with
            | error e => rw [hm] at h; cases h
            | ok more =>
              rw [hm] at h
              simp only at h
              have ih := ih hm
              cases o with
              | none =>
                simp only [Except.ok.injEq] at h
                subst h
                rw [ih]
                simp only [List.mem_cons, Option.some.injEq]
                constructor
                · rintro ⟨h1, h2, k', h3, h4⟩; exact ⟨h1, h2, k', .inr h3, h4⟩
                · rintro ⟨h1, h2, k', rfl | h3, h4, h5⟩
                  · rw [ha] at h5; simp at h5
                  · exact ⟨h1, h2, k', h3, h4, h5⟩
              | some t =>
                simp only [Except.ok.injEq] at h
                subst h
                have : s ∈ (if t ≠ [] ∧ t ∉ provided then t :: more else more) ↔
                    (s = t ∧ s ≠ [] ∧ s ∉ provided) ∨ s ∈ more := by
                  split
                  · rename_i hc
                    rw [List.mem_cons]
                    constructor
                    · rintro (rfl | h)
                      · exact .inl ⟨rfl, hc⟩
                      · exact .inr h
                    · rintro (⟨h, _⟩ | h)
                      · exact .inl h
                      · exact .inr h
                  · rename_i hc
                    constructor
                    · exact .inr
                    · rintro (⟨rfl, h⟩ | h)
                      · exact absurd h hc
                      · exact h
                rw [this, ih]
                simp only [List.mem_cons, Option.some.injEq]
                constructor
                · rintro (⟨rfl, h1, h2⟩ | ⟨h1, h2, k', h3, h4⟩)
                  · exact ⟨h1, h2, k, .inl rfl, hk, ha⟩
                  · exact ⟨h1, h2, k', .inr h3, h4⟩
                · rintro ⟨h1, h2, k', rfl | h3, h4, h5⟩
                  · rw [ha] at h5
                    simp only [Except.ok.injEq, Option.some.injEq] at h5
                    exact .inl ⟨h5.symm, h1, h2⟩
                  · exact .inr ⟨h1, h2, k', h3, h4, h5⟩
        · rw [if_neg hk] at h
          rw [ih h]
          simp only [List.mem_cons, Option.some.injEq]
          constructor
          · rintro ⟨h1, h2, k', h3, h4⟩; exact ⟨h1, h2, k', .inr h3, h4⟩
          · rintro ⟨h1, h2, k', rfl | h3, h4, h5⟩
            · exact absurd h4 hk
            · exact ⟨h1, h2, k', h3, h4, h5⟩

theorem nodup_eraseDups {α : Type} [BEq α] [LawfulBEq α] (l : List α) : l.eraseDups.Nodup := by
  obtain ⟨n, hn⟩ : ∃ n, l.length ≤ n := ⟨_, Nat.le_refl _⟩
  induction n generalizing l with
  | zero =>
    have : l = [] := List.length_eq_zero_iff.1 (by omega)
    subst this
    simp
  | succ n ih =>
    cases l with
    | nil => simp
    | cons a l =>
      rw [List.eraseDups_cons, List.nodup_cons]
      refine ⟨fun h => ?_, ih _ ?_⟩
      · rw [List.mem_eraseDups, List.mem_filter] at h
        simp at h
      · have := List.length_filter_le (fun b => !b == a) l
        simp only [List.length_cons] at hn
        omega

theorem mapM_ident {f : Member → Res Str} {ms : List Member} {l : List Str} (h : ms.mapM f = .ok l) :
    ∀ m ∈ ms, ∃ i, f m = .ok i := by
  induction ms generalizing l with
  | nil => simp
  | cons m ms ih =>
    rw [List.mapM_cons] at h
    simp only [bind, Except.bind] at h
    cases hm : f m with
    | error e => rw [hm] at h; cases h
    | ok i =>
      rw [hm] at h
      simp only at h
      cases hr : ms.mapM f with
      | error e => rw [hr] at h; cases h
      | ok is =>
        intro m' hm'
        rcases List.mem_cons.1 hm' with rfl | hm'
        · exact ⟨i, hm⟩
        · exact ih hr m' hm'

/-- The symbols of a class are what they should be. -/
theorem classSymbols_ok {lim : Nat} {c : ClassInfo} {r p q : List Str}
    (h : classSymbols lim c = .ok (r, p, q)) :
    (∀ s, s ∈ r ↔ Needs lim c s) ∧ (∀ s, s ∈ p ↔ Offers lim c false s) ∧
    (∀ s, s ∈ q ↔ Offers lim c true s) ∧ r.Nodup ∧ p.Nodup := by
  unfold classSymbols at h
  have h0 := cacheOK_empty c lim
  have g1 := getRequires_ok fnmatch c lim _ h0 []
  cases hr : getRequires fnmatch c lim [] .empty with
  | mk x1 st1 =>
    rw [hr] at h g1
    cases x1 with
    | error e => cases h
    | ok r' =>
      simp only at h g1
      have g2 := getProvides_ok fnmatch c lim _ g1.2 [] false
      cases hp : getProvides fnmatch c lim [] false st1 with
      | mk x2 st2 =>
        rw [hp] at h g2
        cases x2 with
        | error e => cases h
        | ok p' =>
          simp only at h g2
          have g3 := getProvides_ok fnmatch c lim _ g2.2 [] true
          cases hq : getProvides fnmatch c lim [] true st2 with
          | mk x3 st3 =>
            rw [hq] at h g3
            cases x3 with
            | error e => cases h
            | ok q' =>
              simp only [Except.ok.injEq, Prod.mk.injEq] at h g3
              obtain ⟨rfl, rfl, rfl⟩ := h
              have hr1 := g1.1
              have hp1 := g2.1
              have hq1 := g3.1
              cases hs : c.providesSeq lim true with
              | error e => rw [hs] at hq1; cases hq1
              | ok l =>
                rw [hs] at hq1
                simp only [Except.map, finish_nil, Except.ok.injEq] at hq1
                have hs' := hs
                unfold ClassInfo.providesSeq at hs'
                have htrue : ∀ ms : List Member, ms.filter (fun _ => true) = ms := fun ms => by simp
                simp only [bind, Except.bind, Bool.true_or, htrue] at hs'
                cases ht : c.getThis lim with
                | error e => rw [ht] at hs'; cases hs'
                | ok v =>
                  rw [ht] at hs'
                  simp only at hs'
                  cases v with
                  | str me =>
                    simp only [PVal.asStr] at hs'
                    cases hf : c.fields.mapM (fun f => f.prettyIdentifier c.pool lim) with
                    | error e => rw [hf] at hs'; cases hs'
                    | ok fs =>
                      rw [hf] at hs'
                      simp only at hs'
                      cases hm : c.methods.mapM (fun m => m.prettyIdentifier c.pool lim) with
                      | error e => rw [hm] at hs'; cases hs'
                      | ok ms =>
                        have hid : ∀ m ∈ c.fields ++ c.methods, ∃ i,
                            m.prettyIdentifier c.pool lim = .ok i := by
                          intro m hmem
                          rcases List.mem_append.1 hmem with h1 | h1
                          · exact mapM_ident hf m h1
                          · exact mapM_ident hm m h1
                        have hid' : ∀ m ∈ c.fields ++ c.methods, m.prettyIdentifier c.pool lim =
                            .ok (match m.prettyIdentifier c.pool lim with | .ok i => i | .error _ => []) := by
                          intro m hmem
                          obtain ⟨i, hi⟩ := hid m hmem
                          rw [hi]
                        have hoff : ∀ (b : Bool) (ps : List Str),
                            (getProvides fnmatch c lim [] b .empty).1 = .ok ps →
                            ∀ s, s ∈ ps ↔ Offers lim c b s := by
                          intro b ps hps s
                          obtain ⟨ps', h1, h2⟩ := C26_provides_content fnmatch c lim [] b me _ ht hid'
                          rw [show apiRun fnmatch c lim ApiCache.empty [] = .empty from rfl, hps,
                            Except.ok.injEq] at h1
                          subst h1
                          rw [h2]
                          constructor
                          · rintro (h | ⟨m, h3, h4, h5⟩)
                            · exact ⟨me, ht, .inl h⟩
                            · exact ⟨me, ht, .inr ⟨m, h3, h4, _, hid' m h3, h5⟩⟩
                          · rintro ⟨me', h1, h3⟩
                            rw [ht] at h1
                            cases h1
                            rcases h3 with h | ⟨m, h3, h4, i, h5, h6⟩
                            · exact .inl h
                            · refine .inr ⟨m, h3, h4, ?_⟩
                              rw [h5]
                              exact h6
                        have e2 : (getProvides fnmatch c lim [] false .empty).1 = .ok p' := by
                          rw [(getProvides_ok fnmatch c lim _ h0 [] false).1, hp1]
                        have e3 : (getProvides fnmatch c lim [] true .empty).1 = .ok q' := by
                          rw [(getProvides_ok fnmatch c lim _ h0 [] true).1, hs, hq1]
                          simp only [Except.map, finish_nil]
                        have o2 := hoff false _ e2
                        have o3 := hoff true _ e3
                        refine ⟨?_, o2, o3, ?_, ?_⟩
                        · unfold requiresValue at hr1
                          rw [hs] at hr1
                          simp only [bind, Except.bind, finish_nil] at hr1
                          cases hl : requiresLoop c.pool lim l.eraseDups 1 (c.pool.drop 1) with
                          | error e => rw [hl] at hr1; cases hr1
                          | ok rr =>
                            rw [hl] at hr1
                            simp only [Except.ok.injEq] at hr1
                            intro s
                            rw [hr1, List.mem_eraseDups, requiresLoop_mem hl, ← hq1, o3 s]
                            constructor
                            · rintro ⟨h1, h2, k, h3, h4⟩
                              obtain ⟨i, hi⟩ := List.getElem?_of_mem h3
                              rw [List.getElem?_drop] at hi
                              exact ⟨h1, ⟨1 + i, k, by omega, hi, h4⟩, h2⟩
                            · rintro ⟨h1, ⟨i, k, h3, h4, h5⟩, h2⟩
                              refine ⟨h1, h2, k, ?_, h5⟩
                              rw [List.mem_iff_getElem?]
                              exact ⟨i - 1, by rw [List.getElem?_drop, ← h4]; congr 1; omega⟩
                        · unfold requiresValue at hr1
                          rw [hs] at hr1
                          simp only [bind, Except.bind, finish_nil] at hr1
                          cases hl : requiresLoop c.pool lim l.eraseDups 1 (c.pool.drop 1) with
                          | error e => rw [hl] at hr1; cases hr1
                          | ok rr =>
                            rw [hl] at hr1
                            simp only [Except.ok.injEq] at hr1
                            rw [hr1]
                            exact nodup_eraseDups _
                        · cases hl : c.providesSeq lim false with
                          | error e => rw [hl] at hp1; cases hp1
                          | ok l' =>
                            rw [hl] at hp1
                            simp only [Except.map, finish_nil, Except.ok.injEq] at hp1
                            rw [hp1]
                            exact nodup_eraseDups _
                  | _ => cases hs'

theorem get?_filter {κ ν : Type} [DecidableEq κ] (q : κ → Bool) (d : PyDict κ ν) (k : κ) :
    PyDict.get? (d.filter fun p => q p.1) k = if q k then PyDict.get? d k else none := by
  induction d with
  | nil => simp [PyDict.get?]
  | cons p d ih =>
    obtain ⟨a, b⟩ := p
    by_cases hq : q a = true
    · rw [List.filter_cons_of_pos (by simpa using hq)]
      simp only [PyDict.get?, ih]
      by_cases ha : a = k
      · subst ha; simp [hq]
      · simp [ha]
    · rw [List.filter_cons_of_neg (by simpa using hq), ih]
      simp only [PyDict.get?]
      by_cases ha : a = k
      · subst ha; simp [hq]
      · simp [ha]

theorem addAll_get {α : Type} (d : SymMap α) (ps : List (Str × α)) (k : Str) :
    PyDict.get? (d.addAll ps) k =
      if (ps.filter fun p => p.1 = k) = [] then PyDict.get? d k
      else some ((PyDict.get? d k).getD [] ++ (ps.filter fun p => p.1 = k).map Prod.snd) := by
  induction ps generalizing d with
  | nil => simp [SymMap.addAll]
  | cons p ps ih =>
    have : d.addAll (p :: ps) = (d.add p.1 p.2).addAll ps := rfl
    rw [this, ih]
    unfold SymMap.add
    rw [PyDict.get?_set]
    by_cases hp : p.1 = k
    · rw [List.filter_cons_of_pos (by simpa using hp)]
      subst hp
      simp only [if_true, reduceCtorEq, if_false, Option.getD_some, List.map_cons, List.append_assoc,
        List.singleton_append]
      split
      · rename_i hn
        rw [hn]
        rfl
      · rfl
    · rw [List.filter_cons_of_neg (by simpa using hp)]
      simp only [if_neg hp]

theorem addAll_nodup {α : Type} (d : SymMap α) (ps : List (Str × α)) (h : (PyDict.keys d).Nodup) :
    (PyDict.keys (d.addAll ps)).Nodup := by
  induction ps generalizing d with
  | nil => exact h
  | cons p ps ih => exact ih _ (PyDict.nodup_keys_set _ _ _ h)

theorem addAll_append {α : Type} (d : SymMap α) (ps qs : List (Str × α)) :
    d.addAll (ps ++ qs) = (d.addAll ps).addAll qs := List.foldl_append

/-- What a map built from pairs says about a symbol. -/
theorem addAll_nil_get {α : Type} (ps : List (Str × α)) (k : Str) :
    (∀ xs, PyDict.get? (SymMap.addAll [] ps) k = some xs ↔
      xs ≠ [] ∧ xs = (ps.filter fun p => p.1 = k).map Prod.snd) ∧
    ((∃ xs, PyDict.get? (SymMap.addAll [] ps) k = some xs) ↔ ∃ x, (k, x) ∈ ps) := by
  have h1 : ∀ xs, PyDict.get? (SymMap.addAll [] ps) k = some xs ↔
      xs ≠ [] ∧ xs = (ps.filter fun p => p.1 = k).map Prod.snd := by
    intro xs
    rw [addAll_get]
    split
    · rename_i hn
      rw [hn]
      simp only [PyDict.get?, List.map_nil]
      constructor
      · intro h; cases h
      · rintro ⟨h, rfl⟩; exact absurd rfl h
    · rename_i hn
      simp only [PyDict.get?, Option.getD_none, List.nil_append, Option.some.injEq]
      constructor
      · rintro rfl
        exact ⟨by simpa using hn, rfl⟩
      · rintro ⟨_, rfl⟩; rfl
  refine ⟨h1, ?_⟩
  constructor
  · rintro ⟨xs, h⟩
    obtain ⟨h2, rfl⟩ := (h1 xs).1 h
    obtain ⟨x, hx⟩ := List.exists_mem_of_ne_nil _ h2
    obtain ⟨p, hp, rfl⟩ := List.mem_map.1 hx
    rw [List.mem_filter] at hp
    have : p.1 = k := by simpa using hp.2
    exact ⟨p.2, by rw [← this]; exact hp.1⟩
  · rintro ⟨x, hx⟩
    refine ⟨_, (h1 _).2 ⟨?_, rfl⟩⟩
    intro h
    have : x ∈ (ps.filter fun p => p.1 = k).map Prod.snd :=
      List.mem_map.2 ⟨(k, x), List.mem_filter.2 ⟨hx, by simp⟩, rfl⟩
    rw [h] at this
    cases this

theorem withoutIgnored_get {α : Type} (ig : List Str) (d : SymMap α) (k : Str) (xs : List α) :
    PyDict.get? (withoutIgnored ig d) k = some xs ↔ PyDict.get? d k = some xs ∧ ¬ Ignored ig k := by
  unfold withoutIgnored
  by_cases h : ig = []
  · rw [if_pos h]
    subst h
    simp [Ignored]
  · rw [if_neg h, get?_filter (fun k => !fnmatches k ig)]
    have : fnmatches k ig = true ↔ Ignored ig k := C61_fnmatches k ig
    by_cases hf : fnmatches k ig = true
    · simp [hf, this.1 hf]
    · have hn : ¬ Ignored ig k := fun h => hf (this.2 h)
      simp [hf, hn]

theorem withoutIgnored_nodup {α : Type} (ig : List Str) (d : SymMap α) (h : (PyDict.keys d).Nodup) :
    (PyDict.keys (withoutIgnored ig d)).Nodup := by
  unfold withoutIgnored
  split
  · exact h
  · exact h.sublist (List.Sublist.map _ List.filter_sublist)

/-! ### C65 -/

theorem class_pattern (n : Str) : fnmatches n ["*.class".toList] = true ↔ ".class".toList <:+ n := by
  rw [C61_fnmatches]
  have : "*.class".toList = '*' :: ".class".toList := by decide +kernel
  rw [this, ← C61_star_suffix n _ (by decide +kernel), C61_fnmatch]
  simp

/-- The pairs that the loop over the classes of a JAR appends. -/
theorem jarSymbolsLoop_ok {lim : Nat} {a : Archive} {es : List Str} {s0 s : Symbols (String × Str)}
    (h : jarSymbolsLoop lim a es s0 = .ok s) :
    ∃ rs ps, s.req = s0.req.addAll rs ∧ s.prov = s0.prov.addAll ps ∧
      (∀ k x, (k, x) ∈ rs ↔ ∃ n ∈ es, x = ("class.requires", n) ∧ ∃ c, a.classInfo lim n = .ok c ∧
        Needs lim c k) ∧
      (∀ k x, (k, x) ∈ ps ↔ ∃ n ∈ es, x = ("class.provides", n) ∧ ∃ c, a.classInfo lim n = .ok c ∧
        Offers lim c false k) ∧
      (∀ k, k ∈ s.priv ↔ k ∈ s0.priv ∨ ∃ n ∈ es, ∃ c, a.classInfo lim n = .ok c ∧
        Offers lim c true k) ∧
      (es.Nodup → rs.Nodup ∧ ps.Nodup) := by
  induction es generalizing s0 with
  | nil =>
    simp only [jarSymbolsLoop, Except.ok.injEq] at h
    subst h
    exact ⟨[], [], rfl, rfl, by simp, by simp, by simp, by simp⟩
  | cons e es ih =>
    simp only [jarSymbolsLoop] at h
    cases hc : a.classInfo lim e with
    | error x => rw [hc] at h; cases h
    | ok c =>
      rw [hc] at h
      simp only [Symbols.addClass] at h
      cases hs : classSymbols lim c with
      | error x => rw [hs] at h; cases h
      | ok t =>
        obtain ⟨r, p, q⟩ := t
        rw [hs] at h
        simp only at h
        obtain ⟨h1, h2, h3, h4, h5⟩ := classSymbols_ok hs
        obtain ⟨rs, ps, i1, i2, i3, i4, i5, i6⟩ := ih h
        refine ⟨r.map (fun k => (k, "class.requires", e)) ++ rs,
          p.map (fun k => (k, "class.provides", e)) ++ ps, ?_, ?_, ?_, ?_, ?_, ?_⟩
        · rw [i1, addAll_append]
        · rw [i2, addAll_append]
        · intro k x
          rw [List.mem_append, i3, List.mem_map]
          simp only [List.mem_cons, Prod.mk.injEq]
          constructor
          · rintro (⟨k', hk, rfl, rfl⟩ | ⟨n, hn, hx⟩)
            · exact ⟨e, .inl rfl, rfl, c, hc, (h1 _).1 hk⟩
            · exact ⟨n, .inr hn, hx⟩
          · rintro ⟨n, rfl | hn, rfl, c', hc', hx⟩
            · rw [hc] at hc'
              cases hc'
              exact .inl ⟨k, (h1 k).2 hx, rfl, rfl⟩
            · exact .inr ⟨n, hn, rfl, c', hc', hx⟩
        · intro k x
          rw [List.mem_append, i4, List.mem_map]
          simp only [List.mem_cons, Prod.mk.injEq]
          constructor
          · rintro (⟨k', hk, rfl, rfl⟩ | ⟨n, hn, hx⟩)
            · exact ⟨e, .inl rfl, rfl, c, hc, (h2 _).1 hk⟩
            · exact ⟨n, .inr hn, hx⟩
          · rintro ⟨n, rfl | hn, rfl, c', hc', hx⟩
            · rw [hc] at hc'
              cases hc'
              exact .inl ⟨k, (h2 k).2 hx, rfl, rfl⟩
            · exact .inr ⟨n, hn, rfl, c', hc', hx⟩
        · intro k
          rw [i5, List.mem_append, h3]
          simp only [List.mem_cons]
          constructor
          · rintro ((h | h) | ⟨n, hn, hx⟩)
            · exact .inl h
            · exact .inr ⟨e, .inl rfl, c, hc, h⟩
            · exact .inr ⟨n, .inr hn, hx⟩
          · rintro (h | ⟨n, rfl | hn, c', hc', hx⟩)
            · exact .inl (.inl h)
            · rw [hc] at hc'
              cases hc'
              exact .inl (.inr hx)
            · exact .inr ⟨n, hn, c', hc', hx⟩
        · intro hnd
          rw [List.nodup_cons] at hnd
          obtain ⟨j1, j2⟩ := i6 hnd.2
          have hm : ∀ (l : List Str) (tag : String), l.Nodup →
              (l.map fun k => (k, tag, e)).Nodup := by
            intro l tag hl
            rw [List.nodup_iff_pairwise_ne, List.pairwise_map]
            exact hl.imp fun hne heq => hne (by simpa using heq)
          constructor
          · rw [List.nodup_append]
            refine ⟨hm _ _ h4, j1, ?_⟩
            rintro x hx y hy rfl
            obtain ⟨k, _, rfl⟩ := List.mem_map.1 hx
            obtain ⟨n, hn, hn', _⟩ := (i3 _ _).1 hy
            simp only [Prod.mk.injEq, true_and] at hn'
            exact hnd.1 (hn' ▸ hn)
          · rw [List.nodup_append]
            refine ⟨hm _ _ h5, j2, ?_⟩
            rintro x hx y hy rfl
            obtain ⟨k, _, rfl⟩ := List.mem_map.1 hx
            obtain ⟨n, hn, hn', _⟩ := (i4 _ _).1 hy
            simp only [Prod.mk.injEq, true_and] at hn'
            exact hnd.1 (hn' ▸ hn)

/-- The loop ends if and only if every class can be read and gives its symbols. -/
theorem jarSymbolsLoop_total (lim : Nat) (a : Archive) (es : List Str) (s0 : Symbols (String × Str)) :
    (∃ s, jarSymbolsLoop lim a es s0 = .ok s) ↔
      ∀ n ∈ es, ∃ c x, a.classInfo lim n = .ok c ∧ classSymbols lim c = .ok x := by
  induction es generalizing s0 with
  | nil => simp [jarSymbolsLoop]
  | cons e es ih =>
    simp only [jarSymbolsLoop, List.mem_cons, forall_eq_or_imp, Symbols.addClass]
    cases hc : a.classInfo lim e with
    | error x => simp
    | ok c =>
      simp only [Except.ok.injEq]
      cases hs : classSymbols lim c with
      | error x =>
        simp only [reduceCtorEq, exists_false, false_iff, not_and]
        rintro ⟨c', x', rfl, h⟩
        rw [hs] at h
        cases h
      | ok t =>
        simp only
        rw [ih]
        exact ⟨fun h => ⟨⟨c, t, rfl, hs⟩, h⟩, fun h => h.2⟩

theorem classes_ok {a : Archive} {es : List Str} (h : a.classes = .ok es) :
    (∀ n, n ∈ es ↔ (∃ e ∈ a.entries, e.name = n) ∧ ".class".toList <:+ n) ∧
    ((a.entries.map ZEntry.name).Nodup → es.Nodup) := by
  unfold Archive.classes Archive.namelist at h
  split at h
  · cases h
  · simp only [Except.map, Except.ok.injEq] at h
    subst h
    constructor
    · intro n
      rw [List.mem_filter, class_pattern, List.mem_map]
    · intro hn
      exact hn.sublist List.filter_sublist

theorem classInfo_iff {lim : Nat} {a : Archive} {n : Str} {c : ClassInfo} :
    a.classInfo lim n = .ok c ↔ ∃ x, a.openRead n = .ok x ∧ unpackPayload lim x = .ok c := by
  unfold Archive.classInfo
  cases a.openRead n <;> simp

/-- What the maps of a JAR must say. -/
structure JarMaps (lim : Nat) (a : Archive) (req prov : SymMap (String × Str)) : Prop where
  req_keys : (PyDict.keys req).Nodup
  prov_keys : (PyDict.keys prov).Nodup
  req_iff : ∀ s, (∃ xs, PyDict.get? req s = some xs) ↔ JarExternal lim a s
  req_by : ∀ s xs, PyDict.get? req s = some xs →
    ∀ x, x ∈ xs ↔ ∃ n, x = ("class.requires", n) ∧ JarNeeds lim a s n
  prov_iff : ∀ s, (∃ xs, PyDict.get? prov s = some xs) ↔ ∃ n, JarOffers lim a false s n
  prov_by : ∀ s xs, PyDict.get? prov s = some xs →
    ∀ x, x ∈ xs ↔ ∃ n, x = ("class.provides", n) ∧ JarOffers lim a false s n
  once : (a.entries.map ZEntry.name).Nodup → ∀ s xs,
    (PyDict.get? req s = some xs → xs.Nodup) ∧ (PyDict.get? prov s = some xs → xs.Nodup)

theorem nodup_values {α : Type} (ps : List (Str × α)) (k : Str) (h : ps.Nodup) :
    ((ps.filter fun p => p.1 = k).map Prod.snd).Nodup := by
  rw [List.nodup_iff_pairwise_ne, List.pairwise_map]
  have h1 : (ps.filter fun p => p.1 = k).Pairwise (· ≠ ·) := (h.sublist List.filter_sublist)
  refine (List.pairwise_iff_forall_sublist.2 fun {x y} hxy heq => ?_)
  have h2 := List.pairwise_iff_forall_sublist.1 h1 hxy
  have hx : x ∈ ps.filter fun p => p.1 = k := hxy.subset (by simp)
  have hy : y ∈ ps.filter fun p => p.1 = k := hxy.subset (by simp)
  rw [List.mem_filter] at hx hy
  apply h2
  have e1 : x.1 = k := by simpa using hx.2
  have e2 : y.1 = k := by simpa using hy.2
  exact Prod.ext (e1.trans e2.symm) heq

theorem jarSymbols_maps {lim : Nat} {a : Archive} {s : Symbols (String × Str)}
    (h : jarSymbols lim a = .ok s) : JarMaps lim a s.external s.prov := by
  unfold jarSymbols at h
  cases hes : a.classes with
  | error e => rw [hes] at h; cases h
  | ok es =>
    rw [hes] at h
    obtain ⟨hmem, hnd⟩ := classes_ok hes
    obtain ⟨rs, ps, h1, h2, h3, h4, h5, h6⟩ := jarSymbolsLoop_ok h
    have hneed : ∀ k n, (n ∈ es ∧ ∃ c, a.classInfo lim n = .ok c ∧ Needs lim c k) ↔ JarNeeds lim a k n := by
      intro k n
      rw [hmem]
      simp only [classInfo_iff, JarNeeds, JarClass]
      constructor
      · rintro ⟨⟨h1, h2⟩, c, h3, h4⟩; exact ⟨c, ⟨h1, h2, h3⟩, h4⟩
      · rintro ⟨c, ⟨h1, h2, h3⟩, h4⟩; exact ⟨⟨h1, h2⟩, c, h3, h4⟩
    have hoff : ∀ b k n, (n ∈ es ∧ ∃ c, a.classInfo lim n = .ok c ∧ Offers lim c b k) ↔
        JarOffers lim a b k n := by
      intro b k n
      rw [hmem]
      simp only [classInfo_iff, JarOffers, JarClass]
      constructor
      · rintro ⟨⟨h1, h2⟩, c, h3, h4⟩; exact ⟨c, ⟨h1, h2, h3⟩, h4⟩
      · rintro ⟨c, ⟨h1, h2, h3⟩, h4⟩; exact ⟨⟨h1, h2⟩, c, h3, h4⟩
    have h1 : s.req = SymMap.addAll [] rs := h1
    have h2 : s.prov = SymMap.addAll [] ps := h2
    have h3' : ∀ k x, (k, x) ∈ rs ↔ ∃ n, x = ("class.requires", n) ∧ JarNeeds lim a k n := by
      intro k x
      rw [h3]
      constructor
      · rintro ⟨n, hn, hx, hc⟩; exact ⟨n, hx, (hneed k n).1 ⟨hn, hc⟩⟩
      · rintro ⟨n, hx, hc⟩; exact ⟨n, ((hneed k n).2 hc).1, hx, ((hneed k n).2 hc).2⟩
    have h4' : ∀ k x, (k, x) ∈ ps ↔ ∃ n, x = ("class.provides", n) ∧ JarOffers lim a false k n := by
      intro k x
      rw [h4]
      constructor
      · rintro ⟨n, hn, hx, hc⟩; exact ⟨n, hx, (hoff _ k n).1 ⟨hn, hc⟩⟩
      · rintro ⟨n, hx, hc⟩; exact ⟨n, ((hoff _ k n).2 hc).1, hx, ((hoff _ k n).2 hc).2⟩
    have h5' : ∀ k, k ∈ s.priv ↔ ∃ n, JarOffers lim a true k n := by
      intro k
      rw [h5]
      constructor
      · rintro (h | ⟨n, hn, hc⟩)
        · cases h
        · exact ⟨n, (hoff _ k n).1 ⟨hn, hc⟩⟩
      · rintro ⟨n, hc⟩; exact .inr ⟨n, (hoff _ k n).2 hc⟩
    have hext : ∀ k xs, PyDict.get? s.external k = some xs ↔
        PyDict.get? (SymMap.addAll [] rs) k = some xs ∧ ¬ ∃ n, JarOffers lim a true k n := by
      intro k xs
      have := get?_filter (fun q => decide (q ∉ s.priv)) s.req k
      unfold Symbols.external
      rw [this, ← h5' k, h1]
      by_cases hp : k ∈ s.priv <;> simp [hp]
    have hval : ∀ (qs : List (Str × String × Str)) k xs,
        PyDict.get? (SymMap.addAll [] qs) k = some xs → ∀ x, x ∈ xs ↔ (k, x) ∈ qs := by
      intro qs k xs hx x
      obtain ⟨_, rfl⟩ := ((addAll_nil_get qs k).1 xs).1 hx
      simp only [List.mem_map, List.mem_filter, decide_eq_true_eq]
      constructor
      · rintro ⟨⟨a, b⟩, ⟨h1, rfl⟩, rfl⟩; exact h1
      · intro h; exact ⟨(k, x), ⟨h, rfl⟩, rfl⟩
    constructor
    · unfold Symbols.external
      rw [h1]
      exact (addAll_nodup [] rs List.nodup_nil).sublist (List.Sublist.map _ List.filter_sublist)
    · rw [h2]
      exact addAll_nodup [] ps List.nodup_nil
    · intro k
      unfold JarExternal
      simp only [hext, exists_and_right, (addAll_nil_get rs k).2, h3']
      constructor
      · rintro ⟨⟨x, n, _, hx⟩, h⟩; exact ⟨⟨n, hx⟩, h⟩
      · rintro ⟨⟨n, hx⟩, h⟩; exact ⟨⟨_, n, rfl, hx⟩, h⟩
    · intro k xs hx x
      rw [hval rs k xs ((hext k xs).1 hx).1, h3']
    · intro k
      rw [h2]
      simp only [(addAll_nil_get ps k).2, h4']
      constructor
      · rintro ⟨x, n, _, hx⟩; exact ⟨n, hx⟩
      · rintro ⟨n, hx⟩; exact ⟨_, n, rfl, hx⟩
    · intro k xs hx x
      rw [h2] at hx
      rw [hval ps k xs hx, h4']
    · intro hn k xs
      obtain ⟨n1, n2⟩ := h6 (hnd hn)
      constructor
      · intro hx
        obtain ⟨_, rfl⟩ := ((addAll_nil_get rs k).1 xs).1 ((hext k xs).1 hx).1
        exact nodup_values rs k n1
      · intro hx
        rw [h2] at hx
        obtain ⟨_, rfl⟩ := ((addAll_nil_get ps k).1 xs).1 hx
        exact nodup_values ps k n2

/-- The object is about the archive `a`, with no cached result or with that of `a`. -/
def JarInfo.About (lim : Nat) (j : JarInfo) (a : Archive) : Prop :=
  (j.zip = some a ∨ (j.zip = none ∧ j.file = some (.ok a))) ∧
  ((j.requires = none ∧ j.provides = none) ∨
    ∃ s, jarSymbols lim a = .ok s ∧ j.requires = some s.external ∧ j.provides = some s.prov)

theorem JarInfo.getZipfile_about {lim : Nat} {j : JarInfo} {a : Archive} (h : j.About lim a) :
    ∃ j', j.getZipfile = (.ok a, j') ∧ j'.file = j.file ∧ j'.zip = some a ∧ j'.requires = j.requires ∧
      j'.provides = j.provides := by
  obtain ⟨h1, _⟩ := h
  unfold JarInfo.getZipfile
  rcases h1 with h1 | ⟨h1, h2⟩
  · rw [h1]; exact ⟨j, rfl, rfl, h1, rfl, rfl⟩
  · rw [h1, h2]; exact ⟨_, rfl, rfl, rfl, rfl, rfl⟩

/-- Both accessors give what `jarSymbols` gives, whatever is cached. -/
theorem JarInfo.accessors {lim : Nat} {j : JarInfo} {a : Archive} (h : j.About lim a) (ig : List Str) :
    (j.getRequires lim ig).1 = (jarSymbols lim a).map (fun s => withoutIgnored ig s.external) ∧
    (j.getProvides lim ig).1 = (jarSymbols lim a).map (fun s => withoutIgnored ig s.prov) ∧
    (j.getRequires lim ig).2.About lim a ∧ (j.getRequires lim ig).2.file = j.file ∧
    (j.getProvides lim ig).2.About lim a ∧ (j.getProvides lim ig).2.file = j.file := by
  obtain ⟨j', z1, z2, z3, z4, z5⟩ := JarInfo.getZipfile_about h
  obtain ⟨h1, h2⟩ := h
  unfold JarInfo.getRequires JarInfo.getProvides JarInfo.collect
  rcases h2 with ⟨h2, h3⟩ | ⟨s, h2, h3, h4⟩
  · rw [h2, h3, z1]
    simp only
    cases hs : jarSymbols lim a with
    | error e =>
      have : j'.About lim a := ⟨.inl z3, .inl ⟨by rw [z4, h2], by rw [z5, h3]⟩⟩
      exact ⟨rfl, rfl, this, z2, this, z2⟩
    | ok s =>
      refine ⟨rfl, rfl, ⟨.inl z3, .inr ⟨s, hs, rfl, rfl⟩⟩, z2, ⟨.inl z3, .inr ⟨s, hs, rfl, rfl⟩⟩, z2⟩
  · rw [h3, h4, h2]
    exact ⟨rfl, rfl, ⟨h1, .inr ⟨s, h2, h3, h4⟩⟩, rfl, ⟨h1, .inr ⟨s, h2, h3, h4⟩⟩, rfl⟩

theorem JarInfo.run_about {lim : Nat} (calls : List InfoCall) {j : JarInfo} {a : Archive}
    (h : j.About lim a) (hc : j.file = some (.ok a) ∨ InfoCall.close ∉ calls) :
    (j.run lim calls).About lim a := by
  induction calls generalizing j with
  | nil => exact h
  | cons c cs ih =>
    obtain ⟨_, _, h3, h4, h5, h6⟩ := JarInfo.accessors h (match c with | .requires ig => ig | .provides ig => ig | .close => [])
    cases c with
    | requires ig =>
      exact ih h3 (by rw [h4]; exact hc.imp id fun h h' => h (by simp [h']))
    | provides ig =>
      exact ih h5 (by rw [h6]; exact hc.imp id fun h h' => h (by simp [h']))
    | close =>
      rcases hc with hc | hc
      · exact ih (j := j.close) ⟨.inr ⟨rfl, hc⟩, h.2⟩ (.inl hc)
      · simp at hc

/-- A `JarInfo` made for the archive `a`: by file name, or from an open archive. -/
def MadeFor (j : JarInfo) (a : Archive) : Prop :=
  j = { file := some (.ok a) } ∨ j = { file := none, zip := some a }

theorem MadeFor.about {j : JarInfo} {a : Archive} (h : MadeFor j a) (lim : Nat) : j.About lim a := by
  rcases h with rfl | rfl
  · exact ⟨.inr ⟨rfl, rfl⟩, .inl ⟨rfl, rfl⟩⟩
  · exact ⟨.inl rfl, .inl ⟨rfl, rfl⟩⟩

section
variable (lim : Nat) (a : Archive) (j : JarInfo) (hj : MadeFor j a) (calls : List InfoCall)
  (hc : j.file = some (.ok a) ∨ InfoCall.close ∉ calls) (ig : List Str)
include hj hc

/-- C65: when `get_requires` returns, whatever was called before, its keys are the symbols that some
class of the JAR needs and none has, without those that a pattern matches, and the value of each are
the classes that need it. -/
theorem C65_requires (d : SymMap (String × Str))
    (h : ((j.run lim calls).getRequires lim ig).1 = .ok d) :
    (PyDict.keys d).Nodup ∧
    (∀ s, s ∈ PyDict.keys d ↔ JarExternal lim a s ∧ ¬ Ignored ig s) ∧
    ∀ s xs, PyDict.get? d s = some xs →
      (∀ x, x ∈ xs ↔ ∃ n, x = ("class.requires", n) ∧ JarNeeds lim a s n) ∧
      ((a.entries.map ZEntry.name).Nodup → xs.Nodup) := by
  have hab := JarInfo.run_about calls (hj.about lim) hc
  rw [(JarInfo.accessors hab ig).1] at h
  cases hs : jarSymbols lim a with
  | error e => rw [hs] at h; cases h
  | ok s =>
    rw [hs] at h
    simp only [Except.map, Except.ok.injEq] at h
    subst h
    have m := jarSymbols_maps hs
    refine ⟨withoutIgnored_nodup _ _ m.req_keys, ?_, ?_⟩
    · intro k
      rw [← PyDict.get?_isSome_iff, Option.isSome_iff_exists, ← m.req_iff]
      simp only [withoutIgnored_get, exists_and_right]
    · intro k xs hx
      rw [withoutIgnored_get] at hx
      exact ⟨m.req_by k xs hx.1, fun hn => (m.once hn k xs).1 hx.1⟩

/-- C65: the same for `get_provides`: the public symbols of the classes. -/
theorem C65_provides (d : SymMap (String × Str))
    (h : ((j.run lim calls).getProvides lim ig).1 = .ok d) :
    (PyDict.keys d).Nodup ∧
    (∀ s, s ∈ PyDict.keys d ↔ (∃ n, JarOffers lim a false s n) ∧ ¬ Ignored ig s) ∧
    ∀ s xs, PyDict.get? d s = some xs →
      (∀ x, x ∈ xs ↔ ∃ n, x = ("class.provides", n) ∧ JarOffers lim a false s n) ∧
      ((a.entries.map ZEntry.name).Nodup → xs.Nodup) := by
  have hab := JarInfo.run_about calls (hj.about lim) hc
  rw [(JarInfo.accessors hab ig).2.1] at h
  cases hs : jarSymbols lim a with
  | error e => rw [hs] at h; cases h
  | ok s =>
    rw [hs] at h
    simp only [Except.map, Except.ok.injEq] at h
    subst h
    have m := jarSymbols_maps hs
    refine ⟨withoutIgnored_nodup _ _ m.prov_keys, ?_, ?_⟩
    · intro k
      rw [← PyDict.get?_isSome_iff, Option.isSome_iff_exists, ← m.prov_iff]
      simp only [withoutIgnored_get, exists_and_right]
    · intro k xs hx
      rw [withoutIgnored_get] at hx
      exact ⟨m.prov_by k xs hx.1, fun hn => (m.once hn k xs).2 hx.1⟩

/-- C65: both accessors return exactly if every class of the JAR can be read and gives its own
symbols. -/
theorem C65_returns (ho : a.closed = false) :
    ((∃ d, ((j.run lim calls).getRequires lim ig).1 = .ok d) ↔
      ∀ e ∈ a.entries, ".class".toList <:+ e.name →
        ∃ c x, JarClass lim a e.name c ∧ classSymbols lim c = .ok x) ∧
    ((∃ d, ((j.run lim calls).getProvides lim ig).1 = .ok d) ↔
      ∀ e ∈ a.entries, ".class".toList <:+ e.name →
        ∃ c x, JarClass lim a e.name c ∧ classSymbols lim c = .ok x) := by
  have hab := JarInfo.run_about calls (hj.about lim) hc
  obtain ⟨h1, h2, _⟩ := JarInfo.accessors hab ig
  rw [h1, h2]
  have hes : ∃ es, a.classes = .ok es := by
    unfold Archive.classes Archive.namelist
    rw [if_neg (by simp [ho])]
    exact ⟨_, rfl⟩
  obtain ⟨es, hes⟩ := hes
  have hmem := (classes_ok hes).1
  have htot := jarSymbolsLoop_total lim a es .empty
  have hall : (∀ n ∈ es, ∃ c x, a.classInfo lim n = .ok c ∧ classSymbols lim c = .ok x) ↔
      ∀ e ∈ a.entries, ".class".toList <:+ e.name →
        ∃ c x, JarClass lim a e.name c ∧ classSymbols lim c = .ok x := by
    simp only [hmem, classInfo_iff, JarClass]
    constructor
    · intro h e he hs
      obtain ⟨c, x, h1, h2⟩ := h e.name ⟨⟨e, he, rfl⟩, hs⟩
      exact ⟨c, x, ⟨⟨e, he, rfl⟩, hs, h1⟩, h2⟩
    · rintro h n ⟨⟨e, he, rfl⟩, hs⟩
      obtain ⟨c, x, ⟨_, _, h1⟩, h2⟩ := h e he hs
      exact ⟨c, x, h1, h2⟩
  rw [← hall, ← htot]
  unfold jarSymbols
  rw [hes]
  simp only
  cases jarSymbolsLoop lim a es .empty <;> simp [Except.map]

end

/-- C65: from a directory instead of a file no symbols can be had if there is a class in it, because
its files are read as text. -/
theorem C65_exploded (lim : Nat) (a : Archive) (he : a.exploded = true) (ho : a.closed = false)
    (j : JarInfo) (hj : MadeFor j a) (ig : List Str) (e : ZEntry) (hm : e ∈ a.entries)
    (hs : ".class".toList <:+ e.name) :
    (∃ x, (j.getRequires lim ig).1 = .error x) ∧ ∃ x, (j.getProvides lim ig).1 = .error x := by
  have key : ∀ c, ¬ JarClass lim a e.name c := by
    rintro c ⟨_, _, x, h1, h2⟩
    unfold Archive.openRead at h1
    cases hf : a.find e.name with
    | none => rw [hf] at h1; cases h1
    | some e' =>
      rw [hf] at h1
      simp only [he, if_true] at h1
      cases hd : decodeStrict e'.raw with
      | none => rw [hd] at h1; cases h1
      | some s =>
        rw [hd] at h1
        simp only [Except.ok.injEq] at h1
        subst h1
        cases h2
  obtain ⟨h1, h2⟩ := C65_returns lim a j hj [] (.inr (by simp)) ig ho
  constructor
  · cases hr : (j.getRequires lim ig).1 with
    | error x => exact ⟨x, rfl⟩
    | ok d =>
      obtain ⟨c, _, h, _⟩ := h1.1 ⟨d, hr⟩ e hm hs
      exact absurd h (key c)
  · cases hr : (j.getProvides lim ig).1 with
    | error x => exact ⟨x, rfl⟩
    | ok d =>
      obtain ⟨c, _, h, _⟩ := h2.1 ⟨d, hr⟩ e hm hs
      exact absurd h (key c)

/-! ### C66 -/

/-- The name ends as one of the names of JARs. -/
def JarName (n : Str) : Prop :=
  ∃ s ∈ [".ear", ".jar", ".rar", ".sar", ".war"], String.toList s <:+ n

theorem jar_pattern (n : Str) : fnmatches n jarPatterns = true ↔ JarName n := by
  have key : ∀ s : Str, (∀ c ∈ s, c ≠ '*' ∧ c ≠ '?' ∧ c ≠ '[') → (Glob ('*' :: s) n ↔ s <:+ n) :=
    fun s hs => by rw [← C61_star_suffix n s hs, C61_fnmatch]
  have e1 : "*.ear".toList = '*' :: ".ear".toList := by decide +kernel
  have e2 : "*.jar".toList = '*' :: ".jar".toList := by decide +kernel
  have e3 : "*.rar".toList = '*' :: ".rar".toList := by decide +kernel
  have e4 : "*.sar".toList = '*' :: ".sar".toList := by decide +kernel
  have e5 : "*.war".toList = '*' :: ".war".toList := by decide +kernel
  rw [C61_fnmatches]
  unfold jarPatterns JarName
  rw [e1, e2, e3, e4, e5]
  simp only [List.mem_cons, List.not_mem_nil, or_false, exists_eq_or_imp, exists_eq_left, ne_eq,
    reduceCtorEq, not_false_eq_true, true_and]
  rw [key _ (by decide +kernel), key _ (by decide +kernel), key _ (by decide +kernel),
    key _ (by decide +kernel), key _ (by decide +kernel)]

/-- `e` is a JAR of the distribution. -/
def DistJar (E : DistEnv) (F : Forest) (e : Str) (a : Archive) : Prop :=
  ∃ p b t, FileAt F p b t ∧ e = slashed p ∧ JarName e ∧ E.openJar b = .ok a

/-- `e` is a class of the distribution outside its JARs. -/
def DistClass (E : DistEnv) (F : Forest) (e : Str) (c : ClassInfo) : Prop :=
  ∃ p b t, FileAt F p b t ∧ e = slashed p ∧ ".class".toList <:+ e ∧
    unpackClass E.lim (.bytes b) = .ok c

/-- Something in the distribution needs the symbol. -/
def DistNeeds (E : DistEnv) (F : Forest) (s : Str) : Prop :=
  (∃ e a, DistJar E F e a ∧ JarExternal E.lim a s) ∨ ∃ e c, DistClass E F e c ∧ Needs E.lim c s

/-- Something in the distribution offers it: a class in a JAR publicly, or another class. -/
def DistOffers (E : DistEnv) (F : Forest) (s : Str) : Prop :=
  (∃ e a n, DistJar E F e a ∧ JarOffers E.lim a false s n) ∨
    ∃ e c, DistClass E F e c ∧ Offers E.lim c true s

/-- The value for a symbol lists what needs it. -/
def RequiredBy (E : DistEnv) (F : Forest) (s : Str) (xs : List DistSource) : Prop :=
  (∀ e, (∃ data, DistSource.jar "jar.requires" e data ∈ xs) ↔
    ∃ a, DistJar E F e a ∧ JarExternal E.lim a s) ∧
  (∀ e, DistSource.cls "class.requires" e ∈ xs ↔ ∃ c, DistClass E F e c ∧ Needs E.lim c s) ∧
  ∀ x ∈ xs, (∃ e, x = .cls "class.requires" e) ∨
    ∃ e a data, x = .jar "jar.requires" e data ∧ DistJar E F e a ∧
      ∀ y, y ∈ data ↔ ∃ n, y = ("class.requires", n) ∧ JarNeeds E.lim a s n

/-- The value for a symbol lists what provides it. -/
def ProvidedBy (E : DistEnv) (F : Forest) (s : Str) (xs : List DistSource) : Prop :=
  (∀ e, (∃ data, DistSource.jar "jar.provides" e data ∈ xs) ↔
    ∃ a n, DistJar E F e a ∧ JarOffers E.lim a false s n) ∧
  (∀ e, DistSource.cls "class.provides" e ∈ xs ↔ ∃ c, DistClass E F e c ∧ Offers E.lim c false s) ∧
  ∀ x ∈ xs, (∃ e, x = .cls "class.provides" e) ∨
    ∃ e a data, x = .jar "jar.provides" e data ∧ DistJar E F e a ∧
      ∀ y, y ∈ data ↔ ∃ n, y = ("class.provides", n) ∧ JarOffers E.lim a false s n

theorem get?_mem_nodup {α : Type} {d : SymMap α} (hd : (PyDict.keys d).Nodup) (k : Str) (v : List α) :
    (k, v) ∈ d ↔ PyDict.get? d k = some v :=
  ⟨PyDict.get?_of_mem_nodup hd, PyDict.mem_of_get?⟩

/-- What one JAR adds to the maps of the distribution. -/
theorem distAddJar_ok {E : DistEnv} {b : DistBase} {e : Str} {s0 s : Symbols DistSource}
    (h : distAddJar E b e s0 = .ok s) :
    ∃ a rs ps, b.openJar E e = .ok a ∧ s.req = s0.req.addAll rs ∧ s.prov = s0.prov.addAll ps ∧
      (∀ k x, (k, x) ∈ rs → ∃ data, x = .jar "jar.requires" e data ∧
        JarExternal E.lim a k ∧ ∀ y, y ∈ data ↔ ∃ n, y = ("class.requires", n) ∧ JarNeeds E.lim a k n) ∧
      (∀ k, JarExternal E.lim a k → ∃ data, (k, DistSource.jar "jar.requires" e data) ∈ rs) ∧
      (∀ k x, (k, x) ∈ ps → ∃ data, x = .jar "jar.provides" e data ∧
        (∃ n, JarOffers E.lim a false k n) ∧
        ∀ y, y ∈ data ↔ ∃ n, y = ("class.provides", n) ∧ JarOffers E.lim a false k n) ∧
      (∀ k n, JarOffers E.lim a false k n → ∃ data, (k, DistSource.jar "jar.provides" e data) ∈ ps) ∧
      (∀ k, k ∈ s.priv ↔ k ∈ s0.priv ∨ ∃ n, JarOffers E.lim a false k n) := by
  unfold distAddJar at h
  cases ho : b.openJar E e with
  | error x =>
    rw [ho] at h
    cases h
  | ok a =>
    rw [ho] at h
    have hab : ({ file := some (.ok a) } : JarInfo).About E.lim a :=
      ⟨.inr ⟨rfl, rfl⟩, .inl ⟨rfl, rfl⟩⟩
    obtain ⟨g1, _, g3, _⟩ := JarInfo.accessors hab []
    obtain ⟨_, g2, _⟩ := JarInfo.accessors g3 []
    simp only at h
    cases hr : JarInfo.getRequires E.lim [] { file := some (.ok a) } with
    | mk x1 ji =>
      rw [hr] at h g1 g2
      cases x1 with
      | error x => cases h
      | ok reqs =>
        simp only at h g1 g2
        cases hp : ji.getProvides E.lim [] with
        | mk x2 ji' =>
          rw [hp] at h g2
          cases x2 with
          | error x => cases h
          | ok provs =>
            simp only [Except.ok.injEq] at h g2
            cases hs : jarSymbols E.lim a with
            | error x => rw [hs] at g1; cases g1
            | ok t =>
              rw [hs] at g1 g2
              simp only [Except.map, withoutIgnored, if_true, Except.ok.injEq] at g1 g2
              have m := jarSymbols_maps hs
              rw [← g1, ← g2] at m
              subst h
              refine ⟨a, _, _, rfl, rfl, rfl, ?_, ?_, ?_, ?_, ?_⟩
              · intro k x hx
                obtain ⟨⟨k', data⟩, h1, h2⟩ := List.mem_map.1 hx
                simp only [Prod.mk.injEq] at h2
                obtain ⟨rfl, rfl⟩ := h2
                rw [get?_mem_nodup m.req_keys] at h1
                exact ⟨data, rfl, (m.req_iff _).1 ⟨_, h1⟩, m.req_by _ _ h1⟩
              · intro k hk
                obtain ⟨data, hd⟩ := (m.req_iff k).2 hk
                exact ⟨data, List.mem_map.2 ⟨(k, data), (get?_mem_nodup m.req_keys _ _).2 hd, rfl⟩⟩
              · intro k x hx
                obtain ⟨⟨k', data⟩, h1, h2⟩ := List.mem_map.1 hx
                simp only [Prod.mk.injEq] at h2
                obtain ⟨rfl, rfl⟩ := h2
                rw [get?_mem_nodup m.prov_keys] at h1
                exact ⟨data, rfl, (m.prov_iff _).1 ⟨_, h1⟩, m.prov_by _ _ h1⟩
              · intro k n hk
                obtain ⟨data, hd⟩ := (m.prov_iff k).2 ⟨n, hk⟩
                exact ⟨data, List.mem_map.2 ⟨(k, data), (get?_mem_nodup m.prov_keys _ _).2 hd, rfl⟩⟩
              · intro k
                rw [List.mem_append, ← PyDict.get?_isSome_iff, Option.isSome_iff_exists, m.prov_iff]

/-- The pairs that come from JARs. -/
theorem distJarsLoop_ok {E : DistEnv} {b : DistBase} {es : List Str} {s0 s : Symbols DistSource}
    (h : distJarsLoop E b es s0 = .ok s) :
    ∃ rs ps, s.req = s0.req.addAll rs ∧ s.prov = s0.prov.addAll ps ∧
      (∀ k x, (k, x) ∈ rs → ∃ e ∈ es, ∃ a data, b.openJar E e = .ok a ∧ x = .jar "jar.requires" e data ∧
        JarExternal E.lim a k ∧ ∀ y, y ∈ data ↔ ∃ n, y = ("class.requires", n) ∧ JarNeeds E.lim a k n) ∧
      (∀ e ∈ es, ∀ a k, b.openJar E e = .ok a → JarExternal E.lim a k →
        ∃ data, (k, DistSource.jar "jar.requires" e data) ∈ rs) ∧
      (∀ k x, (k, x) ∈ ps → ∃ e ∈ es, ∃ a data, b.openJar E e = .ok a ∧ x = .jar "jar.provides" e data ∧
        (∃ n, JarOffers E.lim a false k n) ∧
        ∀ y, y ∈ data ↔ ∃ n, y = ("class.provides", n) ∧ JarOffers E.lim a false k n) ∧
      (∀ e ∈ es, ∀ a k n, b.openJar E e = .ok a → JarOffers E.lim a false k n →
        ∃ data, (k, DistSource.jar "jar.provides" e data) ∈ ps) ∧
      (∀ k, k ∈ s.priv ↔ k ∈ s0.priv ∨ ∃ e ∈ es, ∃ a n, b.openJar E e = .ok a ∧
        JarOffers E.lim a false k n) := by
  induction es generalizing s0 with
  | nil =>
    simp only [distJarsLoop, Except.ok.injEq] at h
    subst h
    exact ⟨[], [], rfl, rfl, by simp, by simp, by simp, by simp, by simp⟩
  | cons e es ih =>
    simp only [distJarsLoop] at h
    cases ha : distAddJar E b e s0 with
    | error x => rw [ha] at h; cases h
    | ok s1 =>
      rw [ha] at h
      obtain ⟨a, rs1, ps1, a1, a2, a3, a4, a5, a6, a7, a8⟩ := distAddJar_ok ha
      obtain ⟨rs, ps, i1, i2, i3, i4, i5, i6, i7⟩ := ih h
      refine ⟨rs1 ++ rs, ps1 ++ ps, ?_, ?_, ?_, ?_, ?_, ?_, ?_⟩
      · rw [i1, a2, addAll_append]
      · rw [i2, a3, addAll_append]
      · intro k x hx
        rcases List.mem_append.1 hx with hx | hx
        · obtain ⟨data, h1, h2, h3⟩ := a4 k x hx
          exact ⟨e, by simp, a, data, a1, h1, h2, h3⟩
        · obtain ⟨e', he, h⟩ := i3 k x hx
          exact ⟨e', by simp [he], h⟩
      · intro e' he a' k ho hk
        rcases List.mem_cons.1 he with rfl | he
        · rw [a1] at ho
          cases ho
          obtain ⟨data, hd⟩ := a5 k hk
          exact ⟨data, by simp [hd]⟩
        · obtain ⟨data, hd⟩ := i4 e' he a' k ho hk
          exact ⟨data, by simp [hd]⟩
      · intro k x hx
        rcases List.mem_append.1 hx with hx | hx
        · obtain ⟨data, h1, h2, h3⟩ := a6 k x hx
          exact ⟨e, by simp, a, data, a1, h1, h2, h3⟩
        · obtain ⟨e', he, h⟩ := i5 k x hx
          exact ⟨e', by simp [he], h⟩
      · intro e' he a' k n ho hk
        rcases List.mem_cons.1 he with rfl | he
        · rw [a1] at ho
          cases ho
          obtain ⟨data, hd⟩ := a7 k n hk
          exact ⟨data, by simp [hd]⟩
        · obtain ⟨data, hd⟩ := i6 e' he a' k n ho hk
          exact ⟨data, by simp [hd]⟩
      · intro k
        rw [i7, a8]
        constructor
        · rintro ((h | ⟨n, h⟩) | ⟨e', he, h⟩)
          · exact .inl h
          · exact .inr ⟨e, by simp, a, n, a1, h⟩
          · exact .inr ⟨e', by simp [he], h⟩
        · rintro (h | ⟨e', he, a', n, ho, h⟩)
          · exact .inl (.inl h)
          · rcases List.mem_cons.1 he with rfl | he
            · rw [a1] at ho
              cases ho
              exact .inl (.inr ⟨n, h⟩)
            · exact .inr ⟨e', he, a', n, ho, h⟩

/-- The pairs that come from the other classes. -/
theorem distClassesLoop_ok {E : DistEnv} {b : DistBase} {es : List Str} {s0 s : Symbols DistSource}
    (h : distClassesLoop E b es s0 = .ok s) :
    ∃ rs ps, s.req = s0.req.addAll rs ∧ s.prov = s0.prov.addAll ps ∧
      (∀ k x, (k, x) ∈ rs ↔ ∃ e ∈ es, x = .cls "class.requires" e ∧ ∃ c, b.classInfo E e = .ok c ∧
        Needs E.lim c k) ∧
      (∀ k x, (k, x) ∈ ps ↔ ∃ e ∈ es, x = .cls "class.provides" e ∧ ∃ c, b.classInfo E e = .ok c ∧
        Offers E.lim c false k) ∧
      (∀ k, k ∈ s.priv ↔ k ∈ s0.priv ∨ ∃ e ∈ es, ∃ c, b.classInfo E e = .ok c ∧
        Offers E.lim c true k) := by
  induction es generalizing s0 with
  | nil =>
    simp only [distClassesLoop, Except.ok.injEq] at h
    subst h
    exact ⟨[], [], rfl, rfl, by simp, by simp, by simp⟩
  | cons e es ih =>
    simp only [distClassesLoop] at h
    cases hc : b.classInfo E e with
    | error x => rw [hc] at h; cases h
    | ok c =>
      rw [hc] at h
      simp only [Symbols.addClass] at h
      cases hs : classSymbols E.lim c with
      | error x => rw [hs] at h; cases h
      | ok t =>
        obtain ⟨r, p, q⟩ := t
        rw [hs] at h
        simp only at h
        obtain ⟨h1, h2, h3, h4, h5⟩ := classSymbols_ok hs
        obtain ⟨rs, ps, i1, i2, i3, i4, i5⟩ := ih h
        refine ⟨r.map (fun k => (k, .cls "class.requires" e)) ++ rs,
          p.map (fun k => (k, .cls "class.provides" e)) ++ ps, ?_, ?_, ?_, ?_, ?_⟩
        · rw [i1, addAll_append]
        · rw [i2, addAll_append]
        · intro k x
          rw [List.mem_append, i3, List.mem_map]
          simp only [List.mem_cons, Prod.mk.injEq]
          constructor
          · rintro (⟨k', hk, rfl, rfl⟩ | ⟨n, hn, hx⟩)
            · exact ⟨e, .inl rfl, rfl, c, hc, (h1 _).1 hk⟩
            · exact ⟨n, .inr hn, hx⟩
          · rintro ⟨n, rfl | hn, rfl, c', hc', hx⟩
            · rw [hc] at hc'
              cases hc'
              exact .inl ⟨k, (h1 k).2 hx, rfl, rfl⟩
            · exact .inr ⟨n, hn, rfl, c', hc', hx⟩
        · intro k x
          rw [List.mem_append, i4, List.mem_map]
          simp only [List.mem_cons, Prod.mk.injEq]
          constructor
          · rintro (⟨k', hk, rfl, rfl⟩ | ⟨n, hn, hx⟩)
            · exact ⟨e, .inl rfl, rfl, c, hc, (h2 _).1 hk⟩
            · exact ⟨n, .inr hn, hx⟩
          · rintro ⟨n, rfl | hn, rfl, c', hc', hx⟩
            · rw [hc] at hc'
              cases hc'
              exact .inl ⟨k, (h2 k).2 hx, rfl, rfl⟩
            · exact .inr ⟨n, hn, rfl, c', hc', hx⟩
        · intro k
          rw [i5, List.mem_append, h3]
          simp only [List.mem_cons]
          constructor
          · rintro ((h | h) | ⟨n, hn, hx⟩)
            · exact .inl h
            · exact .inr ⟨e, .inl rfl, c, hc, h⟩
            · exact .inr ⟨n, .inr hn, hx⟩
          · rintro (h | ⟨n, rfl | hn, c', hc', hx⟩)
            · exact .inl (.inl h)
            · rw [hc] at hc'
              cases hc'
              exact .inl (.inr hx)
            · exact .inr ⟨n, hn, c', hc', hx⟩

theorem distAddJar_total (E : DistEnv) (b : DistBase) (e : Str) (s0 : Symbols DistSource) :
    (∃ s, distAddJar E b e s0 = .ok s) ↔
      ∃ a x, b.openJar E e = .ok a ∧ jarSymbols E.lim a = .ok x := by
  constructor
  · rintro ⟨s, h⟩
    unfold distAddJar at h
    cases ho : b.openJar E e with
    | error x => rw [ho] at h; cases h
    | ok a =>
      rw [ho] at h
      have hab : ({ file := some (.ok a) } : JarInfo).About E.lim a :=
        ⟨.inr ⟨rfl, rfl⟩, .inl ⟨rfl, rfl⟩⟩
      have g1 := (JarInfo.accessors hab []).1
      simp only at h
      cases hr : JarInfo.getRequires E.lim [] { file := some (.ok a) } with
      | mk x1 ji =>
        rw [hr] at h g1
        cases x1 with
        | error x => cases h
        | ok reqs =>
          cases hs : jarSymbols E.lim a with
          | error x => rw [hs] at g1; cases g1
          | ok t => exact ⟨a, t, rfl, hs⟩
  · rintro ⟨a, x, ho, hs⟩
    have hab : ({ file := some (.ok a) } : JarInfo).About E.lim a :=
      ⟨.inr ⟨rfl, rfl⟩, .inl ⟨rfl, rfl⟩⟩
    obtain ⟨g1, _, g3, _⟩ := JarInfo.accessors hab []
    obtain ⟨_, g2, _⟩ := JarInfo.accessors g3 []
    unfold distAddJar
    rw [ho]
    simp only
    cases hr : JarInfo.getRequires E.lim [] { file := some (.ok a) } with
    | mk x1 ji =>
      rw [hr] at g1 g2
      rw [hs] at g1 g2
      simp only [Except.map] at g1 g2
      subst g1
      simp only
      cases hp : ji.getProvides E.lim [] with
      | mk x2 ji' =>
        rw [hp] at g2
        simp only at g2
        subst g2
        exact ⟨_, rfl⟩

theorem distJarsLoop_total (E : DistEnv) (b : DistBase) (es : List Str) (s0 : Symbols DistSource) :
    (∃ s, distJarsLoop E b es s0 = .ok s) ↔
      ∀ e ∈ es, ∃ a x, b.openJar E e = .ok a ∧ jarSymbols E.lim a = .ok x := by
  induction es generalizing s0 with
  | nil => simp [distJarsLoop]
  | cons e es ih =>
    simp only [distJarsLoop, List.mem_cons, forall_eq_or_imp, ← distAddJar_total E b e s0]
    cases ha : distAddJar E b e s0 with
    | error x => simp
    | ok s1 => simp [ih]

theorem distClassesLoop_total (E : DistEnv) (b : DistBase) (es : List Str) (s0 : Symbols DistSource) :
    (∃ s, distClassesLoop E b es s0 = .ok s) ↔
      ∀ e ∈ es, ∃ c x, b.classInfo E e = .ok c ∧ classSymbols E.lim c = .ok x := by
  induction es generalizing s0 with
  | nil => simp [distClassesLoop]
  | cons e es ih =>
    simp only [distClassesLoop, List.mem_cons, forall_eq_or_imp, Symbols.addClass]
    cases hc : b.classInfo E e with
    | error x => simp
    | ok c =>
      simp only [Except.ok.injEq]
      cases hs : classSymbols E.lim c with
      | error x =>
        simp only [reduceCtorEq, exists_false, false_iff, not_and]
        rintro ⟨c', x', rfl, h⟩
        rw [hs] at h
        cases h
      | ok t =>
        simp only
        rw [ih]
        exact ⟨fun h => ⟨⟨c, t, rfl, hs⟩, h⟩, fun h => h.2⟩

theorem mem_distContents {F : Forest} (hF : F.Ok) (n : Str) :
    n ∈ distContents F ↔ ∃ p b t, FileAt F p b t ∧ n = slashed p := by
  have : distContents F = F.paths.map slashed := by
    simp [distContents, Forest.paths, walkPaths, List.map_flatMap, Function.comp_def]
  rw [this, List.mem_map]
  constructor
  · rintro ⟨p, hp, rfl⟩
    obtain ⟨b, t, h⟩ := (mem_paths hF).1 hp
    exact ⟨p, b, t, h, rfl⟩
  · rintro ⟨p, b, t, h, rfl⟩
    exact ⟨p, (mem_paths hF).2 ⟨b, t, h⟩, rfl⟩

theorem dirJar_iff {E : DistEnv} {F : Forest} (hF : F.Ok) (e : Str) (a : Archive) :
    DistJar E F e a ↔ e ∈ (distContents F).filter (fun n => fnmatches n jarPatterns) ∧
      (DistBase.dir F).openJar E e = .ok a := by
  rw [List.mem_filter, jar_pattern, mem_distContents hF]
  constructor
  · rintro ⟨p, b, t, h1, h2, h3, h4⟩
    refine ⟨⟨⟨p, b, t, h1, h2⟩, h3⟩, ?_⟩
    simp only [DistBase.openJar, readEntry_file hF h1 (.inl h2), h4]
  · rintro ⟨⟨⟨p, b, t, h1, h2⟩, h3⟩, h4⟩
    simp only [DistBase.openJar, readEntry_file hF h1 (.inl h2)] at h4
    exact ⟨p, b, t, h1, h2, h3, h4⟩

theorem dirClass_iff {E : DistEnv} {F : Forest} (hF : F.Ok) (e : Str) (c : ClassInfo) :
    DistClass E F e c ↔ e ∈ (distContents F).filter (fun n => fnmatches n ["*.class".toList]) ∧
      (DistBase.dir F).classInfo E e = .ok c := by
  rw [List.mem_filter, class_pattern, mem_distContents hF]
  constructor
  · rintro ⟨p, b, t, h1, h2, h3, h4⟩
    refine ⟨⟨⟨p, b, t, h1, h2⟩, h3⟩, ?_⟩
    simp only [DistBase.classInfo, readEntry_file hF h1 (.inl h2), h4]
  · rintro ⟨⟨⟨p, b, t, h1, h2⟩, h3⟩, h4⟩
    simp only [DistBase.classInfo, readEntry_file hF h1 (.inl h2)] at h4
    exact ⟨p, b, t, h1, h2, h3, h4⟩

/-- What the maps of a distribution must say. -/
structure DistMaps (E : DistEnv) (F : Forest) (req prov : SymMap DistSource) : Prop where
  req_keys : (PyDict.keys req).Nodup
  prov_keys : (PyDict.keys prov).Nodup
  req_iff : ∀ s, (∃ xs, PyDict.get? req s = some xs) ↔ DistNeeds E F s ∧ ¬ DistOffers E F s
  req_by : ∀ s xs, PyDict.get? req s = some xs → RequiredBy E F s xs
  prov_iff : ∀ s, (∃ xs, PyDict.get? prov s = some xs) ↔
    (∃ e a n, DistJar E F e a ∧ JarOffers E.lim a false s n) ∨
      ∃ e c, DistClass E F e c ∧ Offers E.lim c false s
  prov_by : ∀ s xs, PyDict.get? prov s = some xs → ProvidedBy E F s xs

theorem mem_values {α : Type} (qs : List (Str × α)) (k : Str) (xs : List α)
    (h : PyDict.get? (SymMap.addAll [] qs) k = some xs) (x : α) : x ∈ xs ↔ (k, x) ∈ qs := by
  obtain ⟨_, rfl⟩ := ((addAll_nil_get qs k).1 xs).1 h
  simp only [List.mem_map, List.mem_filter, decide_eq_true_eq]
  constructor
  · rintro ⟨⟨a, b⟩, ⟨h1, rfl⟩, rfl⟩; exact h1
  · intro h; exact ⟨(k, x), ⟨h, rfl⟩, rfl⟩

theorem distSymbols_maps {E : DistEnv} {F : Forest} (hF : F.Ok) {s : Symbols DistSource}
    (h : distSymbols E (.dir F) (distContents F) = .ok s) : DistMaps E F s.external s.prov := by
  unfold distSymbols at h
  cases hj : distJarsLoop E (.dir F) ((distContents F).filter fun n => fnmatches n jarPatterns) .empty with
  | error e => rw [hj] at h; cases h
  | ok s1 =>
    rw [hj] at h
    simp only at h
    obtain ⟨jr, jp, j1, j2, j3, j4, j5, j6, j7⟩ := distJarsLoop_ok hj
    obtain ⟨cr, cp, c1, c2, c3, c4, c5⟩ := distClassesLoop_ok h
    have r1 : s.req = SymMap.addAll [] (jr ++ cr) := by
      rw [c1, j1, addAll_append]
      rfl
    have p1 : s.prov = SymMap.addAll [] (jp ++ cp) := by
      rw [c2, j2, addAll_append]
      rfl
    -- in terms of the distribution
    have c3' : ∀ k x, (k, x) ∈ cr ↔ ∃ e c, x = .cls "class.requires" e ∧ DistClass E F e c ∧
        Needs E.lim c k := by
      intro k x
      simp only [c3, dirClass_iff hF]
      constructor
      · rintro ⟨e, h1, h2, c, h3, h4⟩; exact ⟨e, c, h2, ⟨h1, h3⟩, h4⟩
      · rintro ⟨e, c, h2, ⟨h1, h3⟩, h4⟩; exact ⟨e, h1, h2, c, h3, h4⟩
    have c4' : ∀ k x, (k, x) ∈ cp ↔ ∃ e c, x = .cls "class.provides" e ∧ DistClass E F e c ∧
        Offers E.lim c false k := by
      intro k x
      simp only [c4, dirClass_iff hF]
      constructor
      · rintro ⟨e, h1, h2, c, h3, h4⟩; exact ⟨e, c, h2, ⟨h1, h3⟩, h4⟩
      · rintro ⟨e, c, h2, ⟨h1, h3⟩, h4⟩; exact ⟨e, h1, h2, c, h3, h4⟩
    have j3' : ∀ k x, (k, x) ∈ jr → ∃ e a data, x = .jar "jar.requires" e data ∧ DistJar E F e a ∧
        JarExternal E.lim a k ∧
        ∀ y, y ∈ data ↔ ∃ n, y = ("class.requires", n) ∧ JarNeeds E.lim a k n := by
      intro k x hx
      obtain ⟨e, h1, a, data, h2, h3, h4⟩ := j3 k x hx
      exact ⟨e, a, data, h3, (dirJar_iff hF e a).2 ⟨h1, h2⟩, h4⟩
    have j4' : ∀ e a k, DistJar E F e a → JarExternal E.lim a k →
        ∃ data, (k, DistSource.jar "jar.requires" e data) ∈ jr := by
      intro e a k h1 h2
      obtain ⟨h3, h4⟩ := (dirJar_iff hF e a).1 h1
      exact j4 e h3 a k h4 h2
    have j5' : ∀ k x, (k, x) ∈ jp → ∃ e a data, x = .jar "jar.provides" e data ∧ DistJar E F e a ∧
        (∃ n, JarOffers E.lim a false k n) ∧
        ∀ y, y ∈ data ↔ ∃ n, y = ("class.provides", n) ∧ JarOffers E.lim a false k n := by
      intro k x hx
      obtain ⟨e, h1, a, data, h2, h3, h4⟩ := j5 k x hx
      exact ⟨e, a, data, h3, (dirJar_iff hF e a).2 ⟨h1, h2⟩, h4⟩
    have j6' : ∀ e a k n, DistJar E F e a → JarOffers E.lim a false k n →
        ∃ data, (k, DistSource.jar "jar.provides" e data) ∈ jp := by
      intro e a k n h1 h2
      obtain ⟨h3, h4⟩ := (dirJar_iff hF e a).1 h1
      exact j6 e h3 a k n h4 h2
    have hoff : ∀ k, k ∈ s.priv ↔ DistOffers E F k := by
      intro k
      rw [c5, j7]
      unfold DistOffers
      simp only [dirClass_iff hF, dirJar_iff hF]
      constructor
      · rintro ((h | ⟨e, h1, a, n, h2, h3⟩) | ⟨e, h1, c, h2, h3⟩)
        · cases h
        · exact .inl ⟨e, a, n, ⟨h1, h2⟩, h3⟩
        · exact .inr ⟨e, c, ⟨h1, h2⟩, h3⟩
      · rintro (⟨e, a, n, ⟨h1, h2⟩, h3⟩ | ⟨e, c, ⟨h1, h2⟩, h3⟩)
        · exact .inl (.inr ⟨e, h1, a, n, h2, h3⟩)
        · exact .inr ⟨e, h1, c, h2, h3⟩
    have hext : ∀ k xs, PyDict.get? s.external k = some xs ↔
        PyDict.get? (SymMap.addAll [] (jr ++ cr)) k = some xs ∧ ¬ DistOffers E F k := by
      intro k xs
      have := get?_filter (fun q => decide (q ∉ s.priv)) s.req k
      unfold Symbols.external
      rw [this, ← hoff k, r1]
      by_cases hp : k ∈ s.priv <;> simp [hp]
    constructor
    · unfold Symbols.external
      rw [r1]
      exact (addAll_nodup [] _ List.nodup_nil).sublist (List.Sublist.map _ List.filter_sublist)
    · rw [p1]
      exact addAll_nodup [] _ List.nodup_nil
    · intro k
      simp only [hext, exists_and_right, (addAll_nil_get (jr ++ cr) k).2, List.mem_append]
      refine and_congr_left fun _ => ?_
      unfold DistNeeds
      constructor
      · rintro ⟨x, hx | hx⟩
        · obtain ⟨e, a, data, _, h2, h3, _⟩ := j3' k x hx
          exact .inl ⟨e, a, h2, h3⟩
        · obtain ⟨e, c, _, h2, h3⟩ := (c3' k x).1 hx
          exact .inr ⟨e, c, h2, h3⟩
      · rintro (⟨e, a, h1, h2⟩ | ⟨e, c, h1, h2⟩)
        · obtain ⟨data, hd⟩ := j4' e a k h1 h2
          exact ⟨_, .inl hd⟩
        · exact ⟨_, .inr ((c3' k _).2 ⟨e, c, rfl, h1, h2⟩)⟩
    · intro k xs hx
      have hm := mem_values _ k xs ((hext k xs).1 hx).1
      simp only [List.mem_append] at hm
      refine ⟨?_, ?_, ?_⟩
      · intro e
        constructor
        · rintro ⟨data, hd⟩
          rcases (hm _).1 hd with hd | hd
          · obtain ⟨e', a, data', h1, h2, h3, _⟩ := j3' k _ hd
            cases h1
            exact ⟨a, h2, h3⟩
          · obtain ⟨_, _, h1, _⟩ := (c3' k _).1 hd
            cases h1
        · rintro ⟨a, h1, h2⟩
          obtain ⟨data, hd⟩ := j4' e a k h1 h2
          exact ⟨data, (hm _).2 (.inl hd)⟩
      · intro e
        rw [hm]
        constructor
        · rintro (hd | hd)
          · obtain ⟨e', a, data', h1, _⟩ := j3' k _ hd
            cases h1
          · obtain ⟨e', c, h1, h2, h3⟩ := (c3' k _).1 hd
            cases h1
            exact ⟨c, h2, h3⟩
        · rintro ⟨c, h1, h2⟩
          exact .inr ((c3' k _).2 ⟨e, c, rfl, h1, h2⟩)
      · intro x hx
        rcases (hm x).1 hx with hd | hd
        · obtain ⟨e, a, data, h1, h2, _, h3⟩ := j3' k _ hd
          exact .inr ⟨e, a, data, h1, h2, h3⟩
        · obtain ⟨e, _, h1, _⟩ := (c3' k _).1 hd
          exact .inl ⟨e, h1⟩
    · intro k
      rw [p1]
      simp only [(addAll_nil_get (jp ++ cp) k).2, List.mem_append]
      constructor
      · rintro ⟨x, hx | hx⟩
        · obtain ⟨e, a, data, _, h2, ⟨n, h3⟩, _⟩ := j5' k x hx
          exact .inl ⟨e, a, n, h2, h3⟩
        · obtain ⟨e, c, _, h2, h3⟩ := (c4' k x).1 hx
          exact .inr ⟨e, c, h2, h3⟩
      · rintro (⟨e, a, n, h1, h2⟩ | ⟨e, c, h1, h2⟩)
        · obtain ⟨data, hd⟩ := j6' e a k n h1 h2
          exact ⟨_, .inl hd⟩
        · exact ⟨_, .inr ((c4' k _).2 ⟨e, c, rfl, h1, h2⟩)⟩
    · intro k xs hx
      rw [p1] at hx
      have hm := mem_values _ k xs hx
      simp only [List.mem_append] at hm
      refine ⟨?_, ?_, ?_⟩
      · intro e
        constructor
        · rintro ⟨data, hd⟩
          rcases (hm _).1 hd with hd | hd
          · obtain ⟨e', a, data', h1, h2, ⟨n, h3⟩, _⟩ := j5' k _ hd
            cases h1
            exact ⟨a, n, h2, h3⟩
          · obtain ⟨_, _, h1, _⟩ := (c4' k _).1 hd
            cases h1
        · rintro ⟨a, n, h1, h2⟩
          obtain ⟨data, hd⟩ := j6' e a k n h1 h2
          exact ⟨data, (hm _).2 (.inl hd)⟩
      · intro e
        rw [hm]
        constructor
        · rintro (hd | hd)
          · obtain ⟨e', a, data', h1, _⟩ := j5' k _ hd
            cases h1
          · obtain ⟨e', c, h1, h2, h3⟩ := (c4' k _).1 hd
            cases h1
            exact ⟨c, h2, h3⟩
        · rintro ⟨c, h1, h2⟩
          exact .inr ((c4' k _).2 ⟨e, c, rfl, h1, h2⟩)
      · intro x hx
        rcases (hm x).1 hx with hd | hd
        · obtain ⟨e, a, data, h1, h2, _, h3⟩ := j5' k _ hd
          exact .inr ⟨e, a, data, h1, h2, h3⟩
        · obtain ⟨e, _, h1, _⟩ := (c4' k _).1 hd
          exact .inl ⟨e, h1⟩

/-- The object is about the base, with no cached results or with the right ones. -/
def DistInfo.About (E : DistEnv) (d : DistInfo) (b : DistBase) : Prop :=
  d.base = b ∧ (d.contents = none ∨ ∃ F, b.working = .ok F ∧ d.contents = some (distContents F)) ∧
  ((d.requires = none ∧ d.provides = none) ∨ ∃ F s, b.working = .ok F ∧
    distSymbols E b (distContents F) = .ok s ∧ d.requires = some s.external ∧ d.provides = some s.prov)

/-- What `_collect_requires_provides` computes. -/
def distResult (E : DistEnv) (b : DistBase) : Res (Symbols DistSource) :=
  match b.working with
  | .error e => .error e
  | .ok F => distSymbols E b (distContents F)

theorem DistInfo.accessors {E : DistEnv} {d : DistInfo} {b : DistBase} (h : d.About E b)
    (ig : List Str) :
    (d.getRequires E ig).1 = (distResult E b).map (fun s => withoutIgnored ig s.external) ∧
    (d.getProvides E ig).1 = (distResult E b).map (fun s => withoutIgnored ig s.prov) ∧
    (d.getRequires E ig).2.About E b ∧ (d.getProvides E ig).2.About E b := by
  obtain ⟨h1, h2, h3⟩ := h
  unfold DistInfo.getRequires DistInfo.getProvides DistInfo.collect distResult
  rcases h3 with ⟨h3, h4⟩ | ⟨F, s, h3, h4, h5, h6⟩
  · rw [h3, h4]
    simp only
    have hc : (∃ e, b.working = .error e ∧ d.getContents = (.error e, d)) ∨
        ∃ F d', b.working = .ok F ∧ d.getContents = (.ok (distContents F), d') ∧ d'.base = b ∧
          d'.contents = some (distContents F) ∧ d'.requires = none ∧ d'.provides = none := by
      unfold DistInfo.getContents
      rcases h2 with h2 | ⟨F, h2, h2'⟩
      · rw [h2, h1]
        cases hw : b.working with
        | error e => exact .inl ⟨e, rfl, rfl⟩
        | ok F => exact .inr ⟨F, _, rfl, rfl, rfl, rfl, h3, h4⟩
      · rw [h2']
        exact .inr ⟨F, d, h2, rfl, h1, h2', h3, h4⟩
    rcases hc with ⟨e, hc, hg⟩ | ⟨F, d', hc, hg, b1, b2, b3, b4⟩
    · rw [hc, hg]
      have : d.About E b := ⟨h1, h2, .inl ⟨h3, h4⟩⟩
      exact ⟨rfl, rfl, this, this⟩
    · rw [hc, hg]
      simp only [b1]
      cases hs : distSymbols E b (distContents F) with
      | error e =>
        have : d'.About E b := ⟨b1, .inr ⟨F, hc, b2⟩, .inl ⟨b3, b4⟩⟩
        exact ⟨rfl, rfl, this, this⟩
      | ok s =>
        have : ∀ x : DistInfo, x = { d' with requires := some s.external, provides := some s.prov } →
            x.About E b := fun x hx => by
          subst hx
          exact ⟨b1, .inr ⟨F, hc, b2⟩, .inr ⟨F, s, hc, hs, rfl, rfl⟩⟩
        exact ⟨rfl, rfl, this _ (by rw [← b1]), this _ (by rw [← b1])⟩
  · rw [h5, h6, h3]
    simp only [h4]
    have : d.About E b := ⟨h1, h2, .inr ⟨F, s, h3, h4, h5, h6⟩⟩
    exact ⟨rfl, rfl, this, this⟩

theorem DistInfo.run_about {E : DistEnv} (calls : List InfoCall) {d : DistInfo} {b : DistBase}
    (h : d.About E b) : (d.run E calls).About E b := by
  induction calls generalizing d with
  | nil => exact h
  | cons c cs ih =>
    cases c with
    | requires ig => exact ih (DistInfo.accessors h ig).2.2.1
    | provides ig => exact ih (DistInfo.accessors h ig).2.2.2
    | close => exact ih (d := d.close) ⟨h.1, .inl rfl, h.2.2⟩

theorem DistInfo.new_about (E : DistEnv) (b : DistBase) : ({ base := b } : DistInfo).About E b :=
  ⟨rfl, .inl rfl, .inl ⟨rfl, rfl⟩⟩

/-- Every JAR and every class of the distribution can be read and gives its symbols. -/
def DistReadable (E : DistEnv) (F : Forest) : Prop :=
  ∀ p b t, FileAt F p b t →
    (JarName (slashed p) → ∃ a, E.openJar b = .ok a ∧ ∃ s, jarSymbols E.lim a = .ok s) ∧
    (".class".toList <:+ slashed p →
      ∃ c, unpackClass E.lim (.bytes b) = .ok c ∧ ∃ x, classSymbols E.lim c = .ok x)

/-- C66 in full: for distributions in a directory and for those in an archive. -/
def C66_full : Prop :=
  ∀ (E : DistEnv) (b : DistBase) (F : Forest), b.working = .ok F → F.Ok → DistReadable E F →
    ∀ (calls : List InfoCall) (ig : List Str),
    ∃ d, ((DistInfo.run E { base := b } calls).getRequires E ig).1 = .ok d ∧
      (∀ s, s ∈ PyDict.keys d ↔ (DistNeeds E F s ∧ ¬ DistOffers E F s) ∧ ¬ Ignored ig s) ∧
      ∀ s xs, PyDict.get? d s = some xs → RequiredBy E F s xs

section
variable (E : DistEnv) (F : Forest) (hF : F.Ok) (calls : List InfoCall) (ig : List Str)
include hF

/-- C66 for directories: when `get_requires` returns, whatever was called before, its keys are the
symbols that something in the distribution needs and nothing in it offers, without those that a
pattern matches, and the value of each lists what needs it. Missing: distributions in an archive,
see `C66_archive`. -/
theorem C66_requires_partial (d : SymMap DistSource)
    (h : ((DistInfo.run E { base := .dir F } calls).getRequires E ig).1 = .ok d) :
    (PyDict.keys d).Nodup ∧
    (∀ s, s ∈ PyDict.keys d ↔ (DistNeeds E F s ∧ ¬ DistOffers E F s) ∧ ¬ Ignored ig s) ∧
    ∀ s xs, PyDict.get? d s = some xs → RequiredBy E F s xs := by
  have hab := DistInfo.run_about calls (DistInfo.new_about E (.dir F))
  rw [(DistInfo.accessors hab ig).1] at h
  simp only [distResult, DistBase.working] at h
  cases hs : distSymbols E (.dir F) (distContents F) with
  | error e => rw [hs] at h; cases h
  | ok s =>
    rw [hs] at h
    simp only [Except.map, Except.ok.injEq] at h
    subst h
    have m := distSymbols_maps hF hs
    refine ⟨withoutIgnored_nodup _ _ m.req_keys, ?_, ?_⟩
    · intro k
      rw [← PyDict.get?_isSome_iff, Option.isSome_iff_exists, ← m.req_iff]
      simp only [withoutIgnored_get, exists_and_right]
    · intro k xs hx
      rw [withoutIgnored_get] at hx
      exact m.req_by k xs hx.1

/-- C66 for directories: the same for `get_provides`. -/
theorem C66_provides (d : SymMap DistSource)
    (h : ((DistInfo.run E { base := .dir F } calls).getProvides E ig).1 = .ok d) :
    (PyDict.keys d).Nodup ∧
    (∀ s, s ∈ PyDict.keys d ↔ ((∃ e a n, DistJar E F e a ∧ JarOffers E.lim a false s n) ∨
      ∃ e c, DistClass E F e c ∧ Offers E.lim c false s) ∧ ¬ Ignored ig s) ∧
    ∀ s xs, PyDict.get? d s = some xs → ProvidedBy E F s xs := by
  have hab := DistInfo.run_about calls (DistInfo.new_about E (.dir F))
  rw [(DistInfo.accessors hab ig).2.1] at h
  simp only [distResult, DistBase.working] at h
  cases hs : distSymbols E (.dir F) (distContents F) with
  | error e => rw [hs] at h; cases h
  | ok s =>
    rw [hs] at h
    simp only [Except.map, Except.ok.injEq] at h
    subst h
    have m := distSymbols_maps hF hs
    refine ⟨withoutIgnored_nodup _ _ m.prov_keys, ?_, ?_⟩
    · intro k
      rw [← PyDict.get?_isSome_iff, Option.isSome_iff_exists, ← m.prov_iff]
      simp only [withoutIgnored_get, exists_and_right]
    · intro k xs hx
      rw [withoutIgnored_get] at hx
      exact m.prov_by k xs hx.1

/-- C66 for directories: both accessors return exactly if everything can be read. -/
theorem C66_returns :
    ((∃ d, ((DistInfo.run E { base := .dir F } calls).getRequires E ig).1 = .ok d) ↔ DistReadable E F) ∧
    ((∃ d, ((DistInfo.run E { base := .dir F } calls).getProvides E ig).1 = .ok d) ↔ DistReadable E F) := by
  have hab := DistInfo.run_about calls (DistInfo.new_about E (.dir F))
  obtain ⟨g1, g2, _⟩ := DistInfo.accessors hab ig
  rw [g1, g2]
  simp only [distResult, DistBase.working]
  have hj := distJarsLoop_total E (.dir F) ((distContents F).filter fun n => fnmatches n jarPatterns) .empty
  have hc := distClassesLoop_total E (.dir F)
    ((distContents F).filter fun n => fnmatches n ["*.class".toList])
  have hall : DistReadable E F ↔
      (∀ e ∈ (distContents F).filter (fun n => fnmatches n jarPatterns),
        ∃ a x, (DistBase.dir F).openJar E e = .ok a ∧ jarSymbols E.lim a = .ok x) ∧
      ∀ e ∈ (distContents F).filter (fun n => fnmatches n ["*.class".toList]),
        ∃ c x, (DistBase.dir F).classInfo E e = .ok c ∧ classSymbols E.lim c = .ok x := by
    simp only [List.mem_filter, jar_pattern, class_pattern, mem_distContents hF]
    constructor
    · intro h
      constructor
      · rintro e ⟨⟨p, b, t, h1, rfl⟩, h2⟩
        obtain ⟨a, h3, s, h4⟩ := (h p b t h1).1 h2
        exact ⟨a, s, by simp only [DistBase.openJar, readEntry_file hF h1 (.inl rfl), h3], h4⟩
      · rintro e ⟨⟨p, b, t, h1, rfl⟩, h2⟩
        obtain ⟨a, h3, s, h4⟩ := (h p b t h1).2 h2
        exact ⟨a, s, by simp only [DistBase.classInfo, readEntry_file hF h1 (.inl rfl), h3], h4⟩
    · rintro ⟨ha, hb⟩ p b t h1
      constructor
      · intro h2
        obtain ⟨a, s, h3, h4⟩ := ha _ ⟨⟨p, b, t, h1, rfl⟩, h2⟩
        simp only [DistBase.openJar, readEntry_file hF h1 (.inl rfl)] at h3
        exact ⟨a, h3, s, h4⟩
      · intro h2
        obtain ⟨a, s, h3, h4⟩ := hb _ ⟨⟨p, b, t, h1, rfl⟩, h2⟩
        simp only [DistBase.classInfo, readEntry_file hF h1 (.inl rfl)] at h3
        exact ⟨a, h3, s, h4⟩
  have hres : (∃ s, distSymbols E (.dir F) (distContents F) = .ok s) ↔ DistReadable E F := by
    rw [hall, ← hj]
    unfold distSymbols
    cases distJarsLoop E (.dir F) ((distContents F).filter fun n => fnmatches n jarPatterns) .empty with
    | error e => simp
    | ok s =>
      rw [← hc s]
      simp
  rw [← hres]
  cases distSymbols E (.dir F) (distContents F) <;> simp [Except.map]

end

/-- C66 for distributions in an archive: both accessors raise if there is a JAR or a class in it,
because these are looked for below the archive and not where it was unpacked. -/
theorem C66_archive (E : DistEnv) (F : Forest) (hF : F.Ok) (calls : List InfoCall) (ig : List Str)
    (p : List Str) (b : Bytes) (t : Int) (hp : FileAt F p b t)
    (hk : JarName (slashed p) ∨ ".class".toList <:+ slashed p) :
    (∃ e, ((DistInfo.run E { base := .file (.ok F) } calls).getRequires E ig).1 = .error e) ∧
    ∃ e, ((DistInfo.run E { base := .file (.ok F) } calls).getProvides E ig).1 = .error e := by
  have hab := DistInfo.run_about calls (DistInfo.new_about E (.file (.ok F)))
  obtain ⟨g1, g2, _⟩ := DistInfo.accessors hab ig
  rw [g1, g2]
  simp only [distResult, DistBase.working]
  have hno : ¬ ∃ s, distSymbols E (.file (.ok F)) (distContents F) = .ok s := by
    rintro ⟨s, hs⟩
    unfold distSymbols at hs
    have hmem : slashed p ∈ distContents F := (mem_distContents hF _).2 ⟨p, b, t, hp, rfl⟩
    cases hj : distJarsLoop E (.file (.ok F))
        ((distContents F).filter fun n => fnmatches n jarPatterns) .empty with
    | error e => rw [hj] at hs; cases hs
    | ok s1 =>
      rw [hj] at hs
      simp only at hs
      rcases hk with hk | hk
      · obtain ⟨a, x, h1, _⟩ := (distJarsLoop_total _ _ _ _).1 ⟨_, hj⟩ (slashed p)
          (List.mem_filter.2 ⟨hmem, (jar_pattern _).2 hk⟩)
        cases h1
      · obtain ⟨a, x, h1, _⟩ := (distClassesLoop_total _ _ _ _).1 ⟨_, hs⟩ (slashed p)
          (List.mem_filter.2 ⟨hmem, (class_pattern _).2 hk⟩)
        cases h1
  cases hs : distSymbols E (.file (.ok F)) (distContents F) with
  | error e => exact ⟨⟨e, rfl⟩, e, rfl⟩
  | ok s => exact absurd ⟨s, hs⟩ hno

/-- Distributions with JARs that are all empty. -/
def emptyJars : DistEnv := { demoEnv with openJar := fun _ => .ok { exploded := false, entries := [] } }

/-- An archive with a JAR in it. -/
theorem C66_full_fails : ¬ C66_full := by
  intro h
  let F : Forest := .file "a.jar".toList [1] 0 .nil
  have hF : F.Ok := ⟨by unfold IsName; decide +kernel, by decide, trivial⟩
  have hat : FileAt F ["a.jar".toList] [1] 0 := .here ..
  have hj : JarName (slashed ["a.jar".toList]) := ⟨".jar", by decide, ['a'], by decide +kernel⟩
  have hnc : ¬ ".class".toList <:+ slashed ["a.jar".toList] := by
    rw [← class_pattern]
    decide +kernel
  have hr : DistReadable emptyJars F := by
    intro p b t hp
    refine ⟨fun _ => ⟨_, rfl, _, rfl⟩, fun hcl => ?_⟩
    have hp' : FileAt (.file "a.jar".toList [1] 0 .nil) p b t := hp
    generalize hg : "a.jar".toList = n at hp' hnc
    cases hp' with
    | here => exact absurd hcl hnc
    | afterFile _ _ _ h => cases h
  obtain ⟨d, h1, _⟩ := h emptyJars (.file (.ok F)) F rfl hF hr [] []
  obtain ⟨⟨e, h2⟩, _⟩ := C66_archive emptyJars F hF [] [] _ _ _ hat (.inl hj)
  rw [h1] at h2
  cases h2

/-! ### C78 -/

/-- C78: the text report of a JAR prints each symbol of the JSON report once, in the order of the
sorting, and nothing else. -/
theorem C78_printed (sort : List Str → List Str) (hs : ∀ l, (sort l).Perm l) (lim : Nat) (a : Archive)
    (j : JarInfo) (hj : MadeFor j a) (calls : List InfoCall)
    (hc : j.file = some (.ok a) ∨ InfoCall.close ∉ calls) (ig : List Str) (all d : SymMap (String × Str))
    (h : (((j.run lim calls).getRequires lim []).1 = .ok all ∧
        ((j.run lim calls).getRequires lim ig).1 = .ok d) ∨
      (((j.run lim calls).getProvides lim []).1 = .ok all ∧
        ((j.run lim calls).getProvides lim ig).1 = .ok d)) :
    (printedSymbols sort ig all).Perm (PyDict.keys d) ∧
      (printedSymbols sort ig all).Sublist (sort (PyDict.keys all)) := by
  have hab := JarInfo.run_about calls (hj.about lim) hc
  have hd : d = withoutIgnored ig all := by
    obtain ⟨a1, a2, _⟩ := JarInfo.accessors hab []
    obtain ⟨b1, b2, _⟩ := JarInfo.accessors hab ig
    rw [a1, a2, b1, b2] at h
    cases hsy : jarSymbols lim a with
    | error e => rw [hsy] at h; rcases h with ⟨h, _⟩ | ⟨h, _⟩ <;> cases h
    | ok s =>
      rw [hsy] at h
      simp only [Except.map, Except.ok.injEq] at h
      have hn : ∀ x : SymMap (String × Str), withoutIgnored [] x = x := fun x => rfl
      rcases h with ⟨h1, h2⟩ | ⟨h1, h2⟩
      · rw [← h1, ← h2, hn]
      · rw [← h1, ← h2, hn]
  subst hd
  unfold printedSymbols
  refine ⟨((hs _).filter _).trans ?_, List.filter_sublist⟩
  have : PyDict.keys (withoutIgnored ig all) =
      (PyDict.keys all).filter fun k => !fnmatches k ig := by
    unfold withoutIgnored
    split
    · rename_i h0
      subst h0
      symm
      rw [List.filter_eq_self]
      intro k _
      rfl
    · simp only [PyDict.keys, List.filter_map]
      rfl
  rw [this]

/-! ### Examples -/

/-- The class `name` with the superclass `super`. -/
def derived (name super : Nat) : Spec.ClassS where
  minor := 0
  major := 52
  pool := [.utf8 [name], .cls 1, .utf8 [super], .cls 3]
  access := 1
  this := 2
  super := 4
  interfaces := []
  fields := []
  methods := []
  attrs := []

/-- `A` extends `B`, `B` extends `C`, in a file and in a directory. -/
def symbolJar (exploded : Bool) : Archive :=
  zipOf exploded [("A.class".toList, (derived 65 66).enc), ("B.class".toList, (derived 66 67).enc),
    ("x".toList, [1])]

example : (JarInfo.getRequires 9 [] { file := some (.ok (symbolJar false)) }).1 =
      .ok [(['C'], [("class.requires", "B.class".toList)])] ∧
    (JarInfo.getRequires 9 ["?".toList] { file := some (.ok (symbolJar false)) }).1 = .ok [] ∧
    (JarInfo.getProvides 9 ["B*".toList] { file := some (.ok (symbolJar false)) }).1 =
      .ok [(['A'], [("class.provides", "A.class".toList)])] ∧
    (JarInfo.getProvides 9 [] { file := some (.ok (symbolJar true)) }).1 = .error .unicodeDecodeError :=
  ⟨by decide +kernel, by decide +kernel, by decide +kernel, by decide +kernel⟩

/-- A JAR with `A` and `B`, and `C` besides. -/
def symbolDist : Forest :=
  .dir ['d'] (.file "a.jar".toList [1] 0 .nil) (.file "C.class".toList (derived 67 68).enc 0 .nil)

def symbolEnv : DistEnv := { demoEnv with openJar := fun _ => .ok (symbolJar false) }

example : (DistInfo.getRequires symbolEnv [] { base := .dir symbolDist }).1 =
      .ok [(['D'], [.cls "class.requires" "C.class".toList])] ∧
    (DistInfo.getProvides symbolEnv ["A".toList] { base := .dir symbolDist }).1 =
      .ok [(['B'], [.jar "jar.provides" "d/a.jar".toList [("class.provides", "B.class".toList)]]),
        (['C'], [.cls "class.provides" "C.class".toList])] ∧
    (DistInfo.getRequires symbolEnv [] { base := .file (.ok symbolDist) }).1 =
      .error (.other "Exception") := by
  decide +kernel

end Javatools
