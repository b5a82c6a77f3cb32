import Verif.Model.Lifecycle
/-
Properties of change objects over their life: C146 (asking and checking again), C147 (collecting
afresh), C148 (squashing the children).
-/
namespace Javatools
namespace Obj
variable {O : Type}

/-! ### Objects that answer alike -/

mutual
/-- The object with every cache filled and what fills the caches forgotten. -/
def norm : Obj O → Obj O
  | leaf h cmp changed desc => leaf h cmp changed desc
  | super h short impl err changed desc cache =>
    if cache.isEmpty then
      match err with
      | some e => super h short [] (some e) changed desc []
      | none => super h short [] none changed desc (normAll impl)
    else super h short [] none changed desc (normAll cache)
  | squashed h oc changed desc ignored => squashed h oc changed desc ignored
def normAll : List (Obj O) → List (Obj O)
  | [] => []
  | c :: cs => norm c :: normAll cs
end

theorem normAll_eq_map (l : List (Obj O)) : normAll l = l.map norm := by
  induction l with
  | nil => rfl
  | cons c cs ih => simp [normAll, ih]

@[simp] theorem normAll_isEmpty (l : List (Obj O)) : (normAll l).isEmpty = l.isEmpty := by
  cases l <;> rfl

theorem norm_super (h : Hdr O) (short impl err changed desc) (cache : List (Obj O)) :
    norm (super h short impl err changed desc cache) =
      if cache.isEmpty then
        match err with
        | some e => super h short [] (some e) changed desc []
        | none => super h short [] none changed desc (impl.map norm)
      else super h short [] none changed desc (cache.map norm) := by
  unfold norm; simp only [normAll_eq_map]

mutual
theorem norm_norm : (o : Obj O) → o.norm.norm = o.norm
  | leaf .. => by simp [norm]
  | squashed .. => by simp [norm]
  | super h short impl err changed desc cache => by
    have key : ∀ l : List (Obj O), (l.map norm).map norm = l.map norm →
        (super h short [] none changed desc (l.map norm)).norm =
          super h short [] none changed desc (l.map norm) := by
      intro l hl
      rw [norm_super]
      by_cases hi : (l.map norm).isEmpty = true
      · rw [List.isEmpty_iff.1 hi]; rfl
      · rw [if_neg hi, hl]
    rw [norm_super]
    by_cases hc : cache.isEmpty = true
    · rw [if_pos hc]
      cases err with
      | some e => simp [norm]
      | none => exact key _ (normAll_normAll impl)
    · rw [if_neg hc]; exact key _ (normAll_normAll cache)
theorem normAll_normAll : (l : List (Obj O)) → (l.map norm).map norm = l.map norm
  | [] => rfl
  | c :: cs => by
    simp only [List.map_cons, List.cons.injEq]
    exact ⟨norm_norm c, normAll_normAll cs⟩
end

@[simp] theorem norm_isChange (o : Obj O) : o.norm.isChange = o.isChange := by
  cases o with
  | leaf => rfl
  | squashed => rfl
  | super h short impl err changed desc cache =>
    rw [norm_super]; split
    · cases err <;> rfl
    · rfl

@[simp] theorem norm_hdr (o : Obj O) : o.norm.hdr = o.hdr := by
  cases o with
  | leaf => rfl
  | squashed => rfl
  | super h short impl err changed desc cache =>
    rw [norm_super]; split
    · cases err <;> rfl
    · rfl

@[simp] theorem norm_getDescription (o : Obj O) : o.norm.getDescription = o.getDescription := by
  cases o with
  | leaf => rfl
  | squashed => rfl
  | super h short impl err changed desc cache =>
    rw [norm_super]; split
    · cases err <;> rfl
    · rfl

/-- The children `collect()` returns, without the cache. -/
def kids : Obj O → Res (List (Obj O))
  | super _ _ impl err _ _ cache =>
    if cache.isEmpty then
      match err with
      | some e => .error e
      | none => .ok impl
    else .ok cache
  | _ => .ok []

theorem collect_fst (o : Obj O) : (o.collect false).1 = o.kids := by
  cases o with
  | leaf => rfl
  | squashed => rfl
  | super h short impl err changed desc cache =>
    simp only [collect, kids, Bool.false_or]
    split
    · cases err <;> rfl
    · rfl

theorem norm_kids (o : Obj O) : o.norm.kids = o.kids.map (List.map norm) := by
  cases o with
  | leaf => rfl
  | squashed => rfl
  | super h short impl err changed desc cache =>
    rw [norm_super]
    by_cases hc : cache.isEmpty = true
    · rw [if_pos hc]
      cases err with
      | some e => simp [kids, hc, Except.map]
      | none =>
        simp only [kids, hc, if_true, Except.map]
        by_cases hi : impl.isEmpty = true
        · simp only [List.isEmpty_iff] at hi; subst hi; rfl
        · have : ¬ (impl.map norm).isEmpty = true := by simpa using hi
          rw [if_neg this]
    · rw [if_neg hc]
      have : ¬ (cache.map norm).isEmpty = true := by simpa using hc
      simp only [kids, if_neg this, if_neg hc, Except.map]

/-- Filling the cache with the children changes no answer, whatever became of the children
meanwhile that did not change theirs. -/
theorem norm_setCache {o : Obj O} {l l' : List (Obj O)} (hk : o.kids = .ok l)
    (hl : l'.map norm = l.map norm) : (o.setCache l').norm = o.norm := by
  cases o with
  | leaf => rfl
  | squashed => rfl
  | super h short impl err changed desc cache =>
    have hemp : l'.isEmpty = l.isEmpty := by
      have := congrArg List.isEmpty hl; simpa using this
    simp only [setCache, norm_super]
    by_cases hc : cache.isEmpty = true
    · cases err with
      | some e => simp [kids, hc] at hk
      | none =>
        simp only [kids, hc, if_true, Except.ok.injEq] at hk
        subst hk
        simp only [hc, if_true]
        by_cases hi : l'.isEmpty = true
        · simp [hi]
        · rw [if_neg hi, hl]
    · simp only [kids, if_neg hc, Except.ok.injEq] at hk
      subst hk
      have : ¬ l'.isEmpty = true := by rw [hemp]; exact hc
      rw [if_neg this, if_neg hc, hl]

theorem collect_norm (o : Obj O) : (o.collect false).2.norm = o.norm := by
  cases o with
  | leaf => rfl
  | squashed => rfl
  | super h short impl err changed desc cache =>
    simp only [collect, Bool.false_or]
    by_cases hc : cache.isEmpty = true
    · rw [if_pos hc]
      cases err with
      | some e => rfl
      | none =>
        have := norm_setCache (o := super h short impl none changed desc cache) (l := impl)
          (l' := impl) (by simp [kids, hc]) rfl
        exact this
    · rw [if_neg hc]

theorem collect_setCache (o : Obj O) (l : List (Obj O)) :
    (o.collect false).2.setCache l = o.setCache l := by
  cases o with
  | leaf => rfl
  | squashed => rfl
  | super h short impl err changed desc cache =>
    simp only [collect, Bool.false_or]
    split
    · cases err <;> rfl
    · rfl

/-! ### `is_ignored` -/

/-- `is_ignored` of a composite in terms of its children. -/
theorem isIgnored_super (x : O) (h : Hdr O) (short impl err changed desc) (cache : List (Obj O)) :
    isIgnored x (super h short impl err changed desc cache) =
    (let self := super h short impl err changed desc cache
     let base : Res Bool × Obj O :=
      if !self.isChange then (.ok false, self)
      else match self.kids with
        | .error e => (.error e, self)
        | .ok l => if l.isEmpty then (.ok false, self)
          else ((allIgnored x l).1, self.setCache (allIgnored x l).2)
     match h.ign with
     | .inherit => base
     | .only rule => (.ok (rule x), self)
     | .orElse rule => if rule x then (.ok true, self) else base) := by
  conv => lhs; unfold isIgnored
  have hb : (if (!(super h short impl err changed desc cache).isChange) = true then
        ((.ok false : Res Bool), super h short impl err changed desc cache)
      else if cache.isEmpty = true then
        match err with
        | some e => (.error e, super h short impl err changed desc cache)
        | none =>
          if impl.isEmpty = true then (.ok false, super h short impl err changed desc cache)
          else
            let r := allIgnored x impl
            (r.1, super h short impl err changed desc r.2)
      else
        let r := allIgnored x cache
        (r.1, super h short impl err changed desc r.2)) =
      (if (!(super h short impl err changed desc cache).isChange) = true then
        (.ok false, super h short impl err changed desc cache)
      else match (super h short impl err changed desc cache).kids with
        | .error e => (.error e, super h short impl err changed desc cache)
        | .ok l => if l.isEmpty = true then (.ok false, super h short impl err changed desc cache)
          else ((allIgnored x l).1,
            (super h short impl err changed desc cache).setCache (allIgnored x l).2)) := by
    split
    · rfl
    · by_cases hc : cache.isEmpty = true
      · cases err <;> simp [kids, hc, setCache]
      · simp [kids, hc, setCache]
  cases h.ign with
  | inherit => exact hb
  | only rule => rfl
  | orElse rule =>
    simp only
    split
    · rfl
    · exact hb

mutual
theorem isIgnored_norm (x : O) : (o : Obj O) →
    (isIgnored x o.norm).1 = (isIgnored x o).1 ∧ (isIgnored x o).2.norm = o.norm
  | leaf h cmp changed desc => by simp [norm, isIgnored]
  | squashed .. => by simp [norm, isIgnored]
  | super h short impl err changed desc cache => by
    have key : ∀ l, (super h short impl err changed desc cache).kids = .ok l →
        (allIgnored x (l.map norm)).1 = (allIgnored x l).1 ∧
        (allIgnored x l).2.map norm = l.map norm := by
      intro l hl
      by_cases hc : cache.isEmpty = true
      · cases err with
        | some e => simp [kids, hc] at hl
        | none =>
          simp only [kids, hc, if_true, Except.ok.injEq] at hl
          subst hl; exact allIgnored_norm x _
      · simp only [kids, if_neg hc, Except.ok.injEq] at hl
        subst hl; exact allIgnored_norm x _
    have hk := norm_kids (super h short impl err changed desc cache)
    obtain ⟨impl', err', cache', hn⟩ : ∃ impl' err' cache',
        (super h short impl err changed desc cache).norm =
          super h short impl' err' changed desc cache' := by
      rw [norm_super]; split
      · cases err <;> exact ⟨_, _, _, rfl⟩
      · exact ⟨_, _, _, rfl⟩
    have hch : (super h short impl' err' changed desc cache').isChange =
        (super h short impl err changed desc cache).isChange := rfl
    rw [hn] at hk
    rw [hn, isIgnored_super, isIgnored_super]
    simp only [hch, hk]
    have hbase : ((if (!(super h short impl err changed desc cache).isChange) = true then
          ((.ok false : Res Bool), super h short impl' err' changed desc cache')
        else match (super h short impl err changed desc cache).kids.map (List.map norm) with
          | .error e => (.error e, super h short impl' err' changed desc cache')
          | .ok l => if l.isEmpty = true then
              (.ok false, super h short impl' err' changed desc cache')
            else ((allIgnored x l).1,
              (super h short impl' err' changed desc cache').setCache (allIgnored x l).2)).1 =
        (if (!(super h short impl err changed desc cache).isChange) = true then
          ((.ok false : Res Bool), super h short impl err changed desc cache)
        else match (super h short impl err changed desc cache).kids with
          | .error e => (.error e, super h short impl err changed desc cache)
          | .ok l => if l.isEmpty = true then
              (.ok false, super h short impl err changed desc cache)
            else ((allIgnored x l).1,
              (super h short impl err changed desc cache).setCache (allIgnored x l).2)).1) ∧
        (if (!(super h short impl err changed desc cache).isChange) = true then
          ((.ok false : Res Bool), super h short impl err changed desc cache)
        else match (super h short impl err changed desc cache).kids with
          | .error e => (.error e, super h short impl err changed desc cache)
          | .ok l => if l.isEmpty = true then
              (.ok false, super h short impl err changed desc cache)
            else ((allIgnored x l).1,
              (super h short impl err changed desc cache).setCache (allIgnored x l).2)).2.norm =
        (super h short impl' err' changed desc cache') := by
      by_cases hch : (!(super h short impl err changed desc cache).isChange) = true
      · simp only [hch, if_true]; exact ⟨trivial, hn⟩
      · simp only [if_neg hch]
        cases hkk : (super h short impl err changed desc cache).kids with
        | error e => exact ⟨rfl, hn⟩
        | ok l =>
          simp only [Except.map, List.isEmpty_map]
          by_cases hle : l.isEmpty = true
          · simp only [hle, if_true]; exact ⟨trivial, hn⟩
          · simp only [if_neg hle]
            refine ⟨(key l hkk).1, ?_⟩
            rw [norm_setCache hkk (key l hkk).2, hn]
    cases h.ign with
    | inherit => exact hbase
    | only rule => exact ⟨rfl, hn⟩
    | orElse rule =>
      simp only
      by_cases hr : rule x = true
      · simp only [hr, if_true]; exact ⟨trivial, hn⟩
      · simp only [hr]; exact hbase
theorem allIgnored_norm (x : O) : (l : List (Obj O)) →
    (allIgnored x (l.map norm)).1 = (allIgnored x l).1 ∧
    (allIgnored x l).2.map norm = l.map norm
  | [] => by simp [allIgnored]
  | c :: cs => by
    have h1 := isIgnored_norm x c
    have h2 := allIgnored_norm x cs
    simp only [List.map_cons, allIgnored, norm_isChange]
    by_cases hc : (!c.isChange) = true
    · simp only [hc, if_true]; exact ⟨h2.1, by simp [h2.2]⟩
    · simp only [if_neg hc, h1.1]
      cases ha : (isIgnored x c).1 with
      | error e => simp [h1.2]
      | ok b => cases b <;> simp [h1.2, h2.1, h2.2]
end

/-! ### Questions -/

theorem ask_norm (q : Ask O) (o : Obj O) :
    (ask q o.norm).1 = (ask q o).1 ∧ (ask q o).2.norm = o.norm := by
  cases q with
  | isChange => simp [ask]
  | description => simp [ask]
  | label => simp [ask]
  | entry => simp [ask]
  | isIgnored x => simp only [ask]; exact ⟨by rw [(isIgnored_norm x o).1], (isIgnored_norm x o).2⟩
  | count =>
    simp only [ask, collect_fst]
    refine ⟨?_, collect_norm o⟩
    rw [norm_kids]
    cases o.kids <;> simp [Except.map]

theorem askAt_norm (p : List Nat) (q : Ask O) (o : Obj O) :
    (askAt p q o.norm).1 = (askAt p q o).1 ∧ (askAt p q o).2.norm = o.norm := by
  induction p generalizing o with
  | nil => exact ask_norm q o
  | cons i p ih =>
    have hs : ∀ o' : Obj O, askAt (i :: p) q o' = (match o'.kids with
        | .error e => (.error e, (o'.collect false).2)
        | .ok subs => match subs[i]? with
          | none => (.error .indexError, (o'.collect false).2)
          | some c => ((askAt p q c).1, o'.setCache (subs.set i (askAt p q c).2))) := by
      intro o'
      have hc := collect_fst o'
      have hset := collect_setCache o'
      rw [askAt]
      generalize o'.collect false = ab at hc hset
      obtain ⟨a, b⟩ := ab
      simp only at hc hset
      subst hc
      cases o'.kids with
      | error e => rfl
      | ok l =>
        simp only [hset]
        cases l[i]? <;> rfl
    rw [hs, hs, norm_kids]
    cases hk : o.kids with
    | error e => exact ⟨rfl, collect_norm o⟩
    | ok l =>
      simp only [Except.map, List.getElem?_map]
      cases hi : l[i]? with
      | none => exact ⟨rfl, collect_norm o⟩
      | some c =>
        simp only [Option.map_some]
        refine ⟨(ih c).1, ?_⟩
        refine norm_setCache hk ?_
        rw [List.map_set, (ih c).2]
        have : (l.map norm)[i]? = some (norm c) := by simp [hi]
        obtain ⟨hlt, he⟩ := List.getElem?_eq_some_iff.1 this
        rw [← he]; exact List.set_getElem_self hlt

/-! ### `check` -/

theorem check_super (h : Hdr O) (impl err changed desc) (cache : List (Obj O)) :
    check (super h none impl err changed desc cache) =
    match (super h none impl err changed desc cache).kids with
    | .error e => (some e, super h none impl err changed desc cache)
    | .ok l => match (checkAll l false).1 with
      | .error e => (some e, super h none impl err changed desc (checkAll l false).2)
      | .ok c => (none, super h none impl err c none (checkAll l false).2) := by
  conv => lhs; unfold check
  by_cases hc : cache.isEmpty = true
  · cases err with
    | some e => simp [kids, hc]
    | none => simp only [kids, hc, if_true]; cases (checkAll impl false).1 <;> rfl
  · simp only [kids, if_neg hc]; cases (checkAll cache false).1 <;> rfl

theorem checkAll_length (l : List (Obj O)) (c : Bool) : (checkAll l c).2.length = l.length := by
  induction l generalizing c with
  | nil => simp [checkAll]
  | cons x xs ih =>
    rw [checkAll]
    cases (check x).1 <;> simp [ih]

mutual
theorem check_again : (o : Obj O) → check (check o).2 = check o
  | leaf h none changed desc => by simp [check]
  | leaf h (some r) changed desc => by
    cases r with
    | error e => simp [check]
    | ok p => simp [check]
  | squashed .. => by simp [check]
  | super h (some b) impl err changed desc cache => by simp [check]
  | super h none impl err changed desc cache => by
    have key : ∀ l, (super h none impl err changed desc cache).kids = .ok l →
        checkAll (checkAll l false).2 false = checkAll l false ∧
        ∀ a b, (super h none impl err a b (checkAll l false).2).kids =
          .ok (checkAll l false).2 := by
      intro l hl
      have hemp : (checkAll l false).2.isEmpty = l.isEmpty := by
        have := checkAll_length l false
        cases h1 : (checkAll l false).2 <;> cases l <;> simp_all
      by_cases hc : cache.isEmpty = true
      · cases err with
        | some e => simp [kids, hc] at hl
        | none =>
          simp only [kids, hc, if_true, Except.ok.injEq] at hl
          subst hl
          refine ⟨checkAll_again _ _, fun a b => ?_⟩
          by_cases hi : impl.isEmpty = true
          · have := List.isEmpty_iff.1 hi
            subst this
            simp [kids, checkAll]
          · simp only [kids, hemp, if_neg hi]
      · simp only [kids, if_neg hc, Except.ok.injEq] at hl
        subst hl
        refine ⟨checkAll_again _ _, fun a b => ?_⟩
        simp only [kids, hemp, if_neg hc]
    rw [check_super]
    cases hk : (super h none impl err changed desc cache).kids with
    | error e => simp only [check_super, hk]
    | ok l =>
      obtain ⟨k1, k2⟩ := key l hk
      simp only
      cases hr : (checkAll l false).1 with
      | error e => simp only [check_super, k2, k1, hr]
      | ok c => simp only [check_super, k2, k1, hr]
theorem checkAll_again : (l : List (Obj O)) → (c : Bool) →
    checkAll (checkAll l c).2 c = checkAll l c
  | [], c => by simp [checkAll]
  | x :: xs, c => by
    have h1 := check_again x
    have h2 := checkAll_again xs
    rw [checkAll]
    cases hx : (check x).1 with
    | some e =>
      simp only [checkAll, h1, hx]
    | none =>
      simp only [checkAll, h1, hx, h2]
end

mutual
theorem check_norm : (o : Obj O) →
    (check o.norm).1 = (check o).1 ∧ (check o.norm).2.norm = (check o).2.norm
  | leaf h none changed desc => by simp [norm]
  | leaf h (some r) changed desc => by simp [norm]
  | squashed .. => by simp [norm]
  | super h (some b) impl err changed desc cache => by
    rw [norm_super]
    by_cases hc : cache.isEmpty = true
    · rw [if_pos hc]
      cases err with
      | some e => simp [check, norm, hc]
      | none =>
        simp only [check, norm_super, hc, if_true, true_and]
        by_cases hi : (impl.map norm).isEmpty = true
        · simp only [hi, if_true, List.map_nil]
          rw [List.isEmpty_iff.1 hi]
        · rw [if_neg hi, normAll_normAll]
    · rw [if_neg hc]
      have : ¬ (cache.map norm).isEmpty = true := by simpa using hc
      simp only [check, norm_super, if_neg hc, if_neg this, normAll_normAll, true_and]
  | super h none impl err changed desc cache => by
    have key : ∀ l, (super h none impl err changed desc cache).kids = .ok l →
        (∀ c, (checkAll (l.map norm) c).1 = (checkAll l c).1 ∧
          (checkAll (l.map norm) c).2.map norm = (checkAll l c).2.map norm) := by
      intro l hl
      by_cases hc : cache.isEmpty = true
      · cases err with
        | some e => simp [kids, hc] at hl
        | none =>
          simp only [kids, hc, if_true, Except.ok.injEq] at hl
          subst hl; exact checkAll_norm _
      · simp only [kids, if_neg hc, Except.ok.injEq] at hl
        subst hl; exact checkAll_norm _
    have hk := norm_kids (super h none impl err changed desc cache)
    have hnn := norm_norm (super h none impl err changed desc cache)
    have hcase : ∀ l, (super h none impl err changed desc cache).kids = .ok l →
        ∀ a b (l' : List (Obj O)), l'.length = l.length →
        (super h none impl err a b l').norm = super h none [] none a b (l'.map norm) := by
      intro l hl a b l' hlen
      rw [norm_super]
      by_cases hi : l'.isEmpty = true
      · have hl' := List.isEmpty_iff.1 hi
        subst hl'
        have : l = [] := List.length_eq_zero_iff.1 hlen.symm
        subst this
        by_cases hc : cache.isEmpty = true
        · cases err with
          | some e => simp [kids, hc] at hl
          | none =>
            simp only [kids, hc, if_true, Except.ok.injEq] at hl
            subst hl; rfl
        · simp only [kids, if_neg hc, Except.ok.injEq] at hl
          subst hl; simp at hc
      · rw [if_neg hi]
    cases hkk : (super h none impl err changed desc cache).kids with
    | error e =>
      have hcc : cache.isEmpty = true := by
        by_cases hc : cache.isEmpty = true
        · exact hc
        · simp [kids, hc] at hkk
      cases err with
      | none => simp [kids, hcc] at hkk
      | some e' =>
        have h1 : (super h none impl (some e') changed desc cache).norm =
            super h none [] (some e') changed desc [] := by rw [norm_super, if_pos hcc]
        have he : e' = e := by simpa [kids, hcc] using hkk
        subst he
        rw [h1, check_super, check_super, hkk]
        simp [kids, h1]
        simp [norm]
    | ok l =>
      have h1 : (super h none impl err changed desc cache).norm =
          super h none [] none changed desc (l.map norm) := by
        rw [norm_super]
        by_cases hc : cache.isEmpty = true
        · cases err with
          | some e => simp [kids, hc] at hkk
          | none =>
            simp only [kids, hc, if_true, Except.ok.injEq] at hkk
            rw [if_pos hc, hkk]
        · simp only [kids, if_neg hc, Except.ok.injEq] at hkk
          rw [if_neg hc, hkk]
      rw [h1] at hk ⊢
      rw [check_super, check_super, hk, hkk]
      simp only [Except.map]
      obtain ⟨k1, k2⟩ := key l hkk false
      have k3 : ∀ a b, (super h none [] none a b (checkAll (l.map norm) false).2).norm =
          super h none [] none a b ((checkAll (l.map norm) false).2.map norm) := by
        intro a b
        rw [norm_super]
        by_cases hi : (checkAll (l.map norm) false).2.isEmpty = true
        · rw [List.isEmpty_iff.1 hi]; rfl
        · rw [if_neg hi]
      rw [k1]
      cases hr : (checkAll l false).1 with
      | error e =>
        simp only [k3, hcase l hkk _ _ _ (checkAll_length l false), k2, true_and]
      | ok c =>
        simp only [k3, hcase l hkk _ _ _ (checkAll_length l false), k2, true_and]
theorem checkAll_norm : (l : List (Obj O)) → (c : Bool) →
    (checkAll (l.map norm) c).1 = (checkAll l c).1 ∧
    (checkAll (l.map norm) c).2.map norm = (checkAll l c).2.map norm
  | [], c => by simp [checkAll]
  | x :: xs, c => by
    have h1 := check_norm x
    have h2 := checkAll_norm xs
    have h3 : (check x.norm).2.isChange = (check x).2.isChange := by
      have := congrArg isChange h1.2; simpa using this
    simp only [List.map_cons, checkAll, h1.1, h3]
    cases hx : (check x).1 with
    | some e => simp [h1.2, norm_norm]
    | none => simp [h1.2, h2]
end

/-! ### C146: asking and checking again -/

/-- Checking the object again changes no answer. -/
def Settled (o : Obj O) : Prop := (check o).2.norm = o.norm

theorem settled_check (o : Obj O) : Settled (check o).2 := by
  rw [Settled, check_again]

theorem check_of_norm {o o' : Obj O} (h : o.norm = o'.norm) :
    (check o).1 = (check o').1 ∧ (check o).2.norm = (check o').2.norm := by
  have h1 := check_norm o
  have h2 := check_norm o'
  rw [h] at h1
  exact ⟨h1.1.symm.trans h2.1, h1.2.symm.trans h2.2⟩

theorem askAt_of_norm {o o' : Obj O} (h : o.norm = o'.norm) (p : List Nat) (q : Ask O) :
    (askAt p q o).1 = (askAt p q o').1 := by
  have h1 := (askAt_norm p q o).1
  have h2 := (askAt_norm p q o').1
  rw [h] at h1
  exact h1.symm.trans h2

theorem run_norm {o : Obj O} (hs : Settled o) (hist : List (Call O)) :
    (run o hist).norm = o.norm := by
  induction hist generalizing o with
  | nil => rfl
  | cons c cs ih =>
    have hn : (step o c).norm = o.norm := by
      cases c with
      | ask p q => exact (askAt_norm p q o).2
      | check => exact hs
    have hset : Settled (step o c) := by
      rw [Settled, (check_of_norm hn).2, hs, hn]
    have := ih hset
    rw [run, List.foldl_cons]
    exact this.trans hn

theorem run_asks_norm (o : Obj O) (hist : List (Call O)) (ha : Call.check ∉ hist) :
    (run o hist).norm = o.norm := by
  induction hist generalizing o with
  | nil => rfl
  | cons c cs ih =>
    have hn : (step o c).norm = o.norm := by
      cases c with
      | ask p q => exact (askAt_norm p q o).2
      | check => simp at ha
    rw [run, List.foldl_cons]
    exact (ih (step o c) (fun h => ha (List.mem_cons_of_mem _ h))).trans hn

/-- C146: once a change has been checked, every question to it or to one of its descendants has
the same answer however often the change was examined or checked again before. -/
theorem C146_stable (o : Obj O) (hist : List (Call O)) (p : List Nat) (q : Ask O) :
    (askAt p q (run (check o).2 hist)).1 = (askAt p q (check o).2).1 :=
  askAt_of_norm (run_norm (settled_check o) hist) p q

/-- C146: checking again gives the same outcome, also when it is an exception. -/
theorem C146_again (o : Obj O) (hist : List (Call O)) :
    (check (run (check o).2 hist)).1 = (check o).1 := by
  rw [(check_of_norm (run_norm (settled_check o) hist)).1, check_again]

/-- C146: examining a change before it is checked influences neither the check nor any answer
after it. -/
theorem C146_before (o : Obj O) (hist : List (Call O)) (ha : Call.check ∉ hist) (p : List Nat)
    (q : Ask O) :
    (check (run o hist)).1 = (check o).1 ∧
    (askAt p q (check (run o hist)).2).1 = (askAt p q (check o).2).1 := by
  have := check_of_norm (run_asks_norm o hist ha)
  exact ⟨this.1, askAt_of_norm this.2 p q⟩

/-! #### The model without a cache -/

mutual
/-- No `collect_impl` of the object or its descendants raises. -/
def NoErr : Obj O → Prop
  | super _ _ impl err _ _ cache => err = none ∧ NoErrAll impl ∧ NoErrAll cache
  | _ => True
def NoErrAll : List (Obj O) → Prop
  | [] => True
  | c :: cs => NoErr c ∧ NoErrAll cs
end

mutual
/-- The object as a tree of `Verif.Model.Change`, in which the children are always there. -/
def view : Obj O → Change O
  | leaf h cmp changed desc => .leaf h cmp changed desc
  | super h short impl _ changed desc cache =>
    .super h short changed desc (if cache.isEmpty then viewAll impl else viewAll cache)
  | squashed h oc changed desc ignored => .squashed h oc changed desc ignored
def viewAll : List (Obj O) → List (Change O)
  | [] => []
  | c :: cs => view c :: viewAll cs
end

theorem view_isChange (o : Obj O) : o.view.isChange = o.isChange := by
  cases o <;> simp only [view] <;> rfl

theorem view_getDescription (o : Obj O) : o.view.getDescription = o.getDescription := by
  cases o with
  | leaf => simp only [view]; rfl
  | squashed => simp only [view]; rfl
  | super h short impl err changed desc cache =>
    simp only [view, Change.getDescription, getDescription]; rfl

theorem viewAll_isEmpty (l : List (Obj O)) : (viewAll l).isEmpty = l.isEmpty := by
  cases l <;> rfl

mutual
theorem isIgnored_view (x : O) : (o : Obj O) → NoErr o →
    (isIgnored x o).1 = .ok (o.view.isIgnored x)
  | leaf h cmp changed desc, _ => by
    simp only [isIgnored, view, Change.isIgnored]
    cases h.ign <;> rfl
  | squashed .., _ => by simp [isIgnored, view, Change.isIgnored]
  | super h short impl err changed desc cache, hn => by
    obtain ⟨he, hi, hc⟩ := hn
    subst he
    have h1 := allIgnored_view x impl hi
    have h2 := allIgnored_view x cache hc
    have hch := view_isChange (super h short impl none changed desc cache)
    rw [isIgnored_super]
    simp only [view] at hch ⊢
    simp only [Change.isIgnored, hch]
    have hb : (if (!(super h short impl none changed desc cache).isChange) = true then
          ((.ok false : Res Bool), super h short impl none changed desc cache)
        else match (super h short impl none changed desc cache).kids with
          | .error e => (.error e, super h short impl none changed desc cache)
          | .ok l => if l.isEmpty = true then
              (.ok false, super h short impl none changed desc cache)
            else ((allIgnored x l).1,
              (super h short impl none changed desc cache).setCache (allIgnored x l).2)).1 =
        .ok (if ¬ (super h short impl none changed desc cache).isChange = true then false
          else if (if cache.isEmpty = true then viewAll impl else viewAll cache).isEmpty = true
            then false
          else Change.allIgnored x (if cache.isEmpty = true then viewAll impl
            else viewAll cache)) := by
      cases (super h short impl none changed desc cache).isChange with
      | false => simp
      | true =>
        simp only [Bool.not_true, Bool.false_eq_true, if_false, not_true_eq_false]
        by_cases hce : cache.isEmpty = true
        · simp only [kids, hce, if_true, viewAll_isEmpty]
          by_cases hie : impl.isEmpty = true
          · simp [hie]
          · simp only [if_neg hie, h1]
        · simp only [kids, if_neg hce, viewAll_isEmpty, h2]
    cases h.ign with
    | inherit => exact hb
    | only rule => rfl
    | orElse rule =>
      simp only
      by_cases hr : rule x = true
      · simp [hr]
      · simp only [if_neg hr]
        rw [hb]
        simp [hr]
theorem allIgnored_view (x : O) : (l : List (Obj O)) → NoErrAll l →
    (allIgnored x l).1 = .ok (Change.allIgnored x (viewAll l))
  | [], _ => by simp [allIgnored, viewAll, Change.allIgnored]
  | c :: cs, hn => by
    have h1 := isIgnored_view x c hn.1
    have h2 := allIgnored_view x cs hn.2
    simp only [allIgnored, viewAll, Change.allIgnored, view_isChange]
    cases hc : c.isChange with
    | false => simp [h2]
    | true =>
      simp only [h1]
      cases c.view.isIgnored x <;> simp [h2]
end

theorem view_super_of_kids {h : Hdr O} {short impl changed desc} {cache l : List (Obj O)}
    (hl : (super h short impl none changed desc cache).kids = .ok l) :
    (super h short impl none changed desc cache).view =
      .super h short changed desc (viewAll l) := by
  simp only [view]
  by_cases hc : cache.isEmpty = true
  · simp only [kids, hc, if_true, Except.ok.injEq] at hl; simp [hc, hl]
  · simp only [kids, if_neg hc, Except.ok.injEq] at hl; rw [if_neg hc, hl]

mutual
theorem check_view : (o : Obj O) → NoErr o →
    (match (check o).1 with
      | some e => o.view.check = .error e
      | none => o.view.check = .ok (check o).2.view)
  | leaf h none changed desc, _ => by simp [check, view, Change.check]
  | leaf h (some r) changed desc, _ => by
    cases r with
    | error e => simp [check, view, Change.check]
    | ok p => simp [check, view, Change.check]
  | squashed .., _ => by simp [check, view, Change.check]
  | super h (some b) impl err changed desc cache, _ => by simp [check, view, Change.check]
  | super h none impl err changed desc cache, hn => by
    obtain ⟨he, hi, hc⟩ := hn
    subst he
    have key : ∀ l, (super h none impl none changed desc cache).kids = .ok l →
        (match (checkAll l false).1 with
          | .error e => Change.checkAll (viewAll l) false = .error e
          | .ok c => Change.checkAll (viewAll l) false =
              .ok (viewAll (checkAll l false).2, c)) ∧
        (∀ c, (super h none impl none c none (checkAll l false).2).view =
          .super h none c none (viewAll (checkAll l false).2)) := by
      intro l hl
      have hv : ∀ c, (super h none impl none c none (checkAll l false).2).view =
          .super h none c none (viewAll (checkAll l false).2) := by
        intro c
        refine view_super_of_kids ?_
        have hlen := checkAll_length l false
        by_cases hemp : (checkAll l false).2.isEmpty = true
        · have h0 := List.isEmpty_iff.1 hemp
          rw [h0] at hlen ⊢
          have : l = [] := List.length_eq_zero_iff.1 hlen.symm
          subst this
          by_cases hce : cache.isEmpty = true
          · simp only [kids, hce, if_true, Except.ok.injEq] at hl
            subst hl; rfl
          · simp only [kids, if_neg hce, Except.ok.injEq] at hl
            subst hl; simp at hce
        · simp only [kids, if_neg hemp]
      refine ⟨?_, hv⟩
      by_cases hce : cache.isEmpty = true
      · simp only [kids, hce, if_true, Except.ok.injEq] at hl
        subst hl; exact checkAll_view _ false hi
      · simp only [kids, if_neg hce, Except.ok.injEq] at hl
        subst hl; exact checkAll_view _ false hc
    rw [check_super]
    cases hk : (super h none impl none changed desc cache).kids with
    | error e =>
      by_cases hce : cache.isEmpty = true
      · simp [kids, hce] at hk
      · simp [kids, hce] at hk
    | ok l =>
      obtain ⟨k1, k2⟩ := key l hk
      rw [view_super_of_kids hk]
      simp only [Change.check]
      cases hr : (checkAll l false).1 with
      | error e => rw [hr] at k1; simp only [k1]
      | ok c => rw [hr] at k1; simp only [k1, k2]
theorem checkAll_view : (l : List (Obj O)) → (c : Bool) → NoErrAll l →
    (match (checkAll l c).1 with
      | .error e => Change.checkAll (viewAll l) c = .error e
      | .ok b => Change.checkAll (viewAll l) c = .ok (viewAll (checkAll l c).2, b))
  | [], c, _ => by simp [checkAll, viewAll, Change.checkAll]
  | x :: xs, c, hn => by
    have h1 := check_view x hn.1
    simp only [checkAll, viewAll, Change.checkAll]
    cases hx : (check x).1 with
    | some e => rw [hx] at h1; simp only at h1; simp only [h1]
    | none =>
      rw [hx] at h1; simp only at h1
      simp only [h1, view_isChange]
      have h2 := checkAll_view xs (c || (check x).2.isChange) hn.2
      cases hr : (checkAll xs (c || (check x).2.isChange)).1 with
      | error e => rw [hr] at h2; simp only at h2; simp only [h2]
      | ok b => rw [hr] at h2; simp only at h2; simp only [h2, viewAll]
end

/-- C146: with their caches, change objects behave as the trees without caches of
`Verif.Model.Change`, about which C35 and C38 speak. -/
theorem C146_refines (o : Obj O) (hn : NoErr o) :
    o.view.check = (match (check o).1 with
      | some e => .error e
      | none => .ok (check o).2.view) ∧
    (∀ x, (isIgnored x o).1 = .ok (o.view.isIgnored x)) ∧
    o.view.isChange = o.isChange ∧ o.view.getDescription = o.getDescription ∧
    o.kids.map viewAll = .ok o.view.collect := by
  refine ⟨?_, fun x => isIgnored_view x o hn, view_isChange o, view_getDescription o, ?_⟩
  · have := check_view o hn
    cases h : (check o).1 with
    | some e => rw [h] at this; exact this
    | none => rw [h] at this; exact this
  · cases o with
    | leaf => rfl
    | squashed => rfl
    | super h short impl err changed desc cache =>
      obtain ⟨he, _, _⟩ := hn
      subst he
      simp only [kids, view, Change.collect]
      split <;> rfl

/-! ### C147: collecting afresh -/

/-- Data of the node that no call changes. -/
def sameImpl : Obj O → Obj O → Prop
  | super h short impl err _ _ _, super h' short' impl' err' _ _ _ =>
    h = h' ∧ short = short' ∧ impl = impl' ∧ err = err'
  | super .., _ => False
  | _, super .. => False
  | _, _ => True

theorem sameImpl_refl (o : Obj O) : sameImpl o o := by cases o <;> simp [sameImpl]

theorem sameImpl_trans {a b c : Obj O} (h1 : sameImpl a b) (h2 : sameImpl b c) : sameImpl a c := by
  cases a <;> cases b <;> cases c <;> simp_all [sameImpl]

theorem sameImpl_setCache (o : Obj O) (l : List (Obj O)) : sameImpl o (o.setCache l) := by
  cases o <;> simp [sameImpl, setCache]

theorem sameImpl_collect (f : Bool) (o : Obj O) : sameImpl o (o.collect f).2 := by
  cases o with
  | leaf => simp [sameImpl, collect]
  | squashed => simp [sameImpl, collect]
  | super h short impl err changed desc cache =>
    simp only [collect]
    split
    · cases err <;> simp [sameImpl]
    · simp [sameImpl]

theorem sameImpl_isIgnored (x : O) (o : Obj O) : sameImpl o (isIgnored x o).2 := by
  cases o with
  | leaf => simp [sameImpl, isIgnored]
  | squashed => simp [sameImpl, isIgnored]
  | super h short impl err changed desc cache =>
    rw [isIgnored_super]
    have hb : sameImpl (super h short impl err changed desc cache)
        (if (!(super h short impl err changed desc cache).isChange) = true then
          ((.ok false : Res Bool), super h short impl err changed desc cache)
        else match (super h short impl err changed desc cache).kids with
          | .error e => (.error e, super h short impl err changed desc cache)
          | .ok l => if l.isEmpty = true then
              (.ok false, super h short impl err changed desc cache)
            else ((allIgnored x l).1,
              (super h short impl err changed desc cache).setCache (allIgnored x l).2)).2 := by
      split
      · exact sameImpl_refl _
      · split
        · exact sameImpl_refl _
        · split
          · exact sameImpl_refl _
          · exact sameImpl_setCache _ _
    cases h.ign with
    | inherit => exact hb
    | only rule => exact sameImpl_refl _
    | orElse rule =>
      simp only
      split
      · exact sameImpl_refl _
      · exact hb

theorem sameImpl_askAt (p : List Nat) (q : Ask O) (o : Obj O) : sameImpl o (askAt p q o).2 := by
  cases p with
  | nil =>
    cases q with
    | isIgnored x => exact sameImpl_isIgnored x o
    | count => exact sameImpl_collect false o
    | _ => exact sameImpl_refl _
  | cons i p =>
    rw [askAt]
    have h1 := sameImpl_collect false o
    split
    · next e o' he => rw [he] at h1; exact h1
    · next subs o' he =>
      rw [he] at h1
      split
      · exact h1
      · exact sameImpl_trans h1 (sameImpl_setCache _ _)

theorem sameImpl_check (o : Obj O) : sameImpl o (check o).2 := by
  cases o with
  | leaf h cmp changed desc =>
    cases cmp with
    | none => simp [sameImpl, check]
    | some r => cases r <;> simp [sameImpl, check]
  | squashed => simp [sameImpl, check]
  | super h short impl err changed desc cache =>
    cases short with
    | some b => simp [sameImpl, check]
    | none =>
      rw [check_super]
      split
      · exact sameImpl_refl _
      · split <;> simp [sameImpl]

theorem sameImpl_run (o : Obj O) (hist : List (Call O)) : sameImpl o (run o hist) := by
  induction hist generalizing o with
  | nil => exact sameImpl_refl _
  | cons c cs ih =>
    rw [run, List.foldl_cons]
    refine sameImpl_trans ?_ (ih (step o c))
    cases c with
    | ask p q => exact sameImpl_askAt p q o
    | check => exact sameImpl_check o

/-- The object has not collected its children yet. -/
def New : Obj O → Prop
  | super _ _ _ _ _ _ cache => cache = []
  | _ => True

/-- C147: a checked change that collects its children afresh and is checked again answers every
question as after its first check. -/
theorem C147_recheck (o : Obj O) (hnew : New o) (hist : List (Call O)) :
    let again := ((run (check o).2 hist).collect true).2
    (check again).1 = (check o).1 ∧
    ((check o).1 = none → ∀ p q, (askAt p q (check again).2).1 = (askAt p q (check o).2).1) := by
  intro again
  have hsame : sameImpl o (run (check o).2 hist) :=
    sameImpl_trans (sameImpl_check o) (sameImpl_run _ hist)
  have hnorm := run_norm (settled_check o) hist
  cases o with
  | leaf h cmp changed desc =>
    have : again = run (check (leaf h cmp changed desc)).2 hist := by
      simp only [again]
      revert hsame
      generalize run (check (leaf h cmp changed desc)).2 hist = r
      cases r <;> simp [sameImpl, collect]
    rw [this]
    exact ⟨C146_again _ hist, fun _ p q => by
      have h2 := check_of_norm hnorm
      rw [check_again] at h2
      exact askAt_of_norm h2.2 p q⟩
  | squashed h oc changed desc ignored =>
    have : again = run (check (squashed h oc changed desc ignored)).2 hist := by
      simp only [again]
      revert hsame
      generalize run (check (squashed h oc changed desc ignored)).2 hist = r
      cases r <;> simp [sameImpl, collect]
    rw [this]
    exact ⟨C146_again _ hist, fun _ p q => by
      have h2 := check_of_norm hnorm
      rw [check_again] at h2
      exact askAt_of_norm h2.2 p q⟩
  | super h short impl err changed desc cache =>
    simp only [New] at hnew
    subst hnew
    obtain ⟨c', d', cache', hr⟩ : ∃ c' d' cache', run (check (super h short impl err changed desc
        [])).2 hist = super h short impl err c' d' cache' := by
      revert hsame
      generalize run (check (super h short impl err changed desc [])).2 hist = r
      cases r with
      | super h' s' i' e' c' d' k' =>
        intro hs; obtain ⟨rfl, rfl, rfl, rfl⟩ := hs; exact ⟨_, _, _, rfl⟩
      | leaf => intro hs; exact hs.elim
      | squashed => intro hs; exact hs.elim
    have hag : again = match err with
        | some e => super h short impl err c' d' cache'
        | none => super h short impl err c' d' impl := by
      simp only [again, hr, collect, Bool.true_or, if_true]
      cases err <;> rfl
    cases err with
    | some e =>
      simp only at hag
      rw [hag, ← hr]
      refine ⟨C146_again _ hist, fun _ p q => ?_⟩
      have h2 := check_of_norm hnorm
      rw [check_again] at h2
      exact askAt_of_norm h2.2 p q
    | none =>
      simp only at hag
      rw [hag]
      cases short with
      | some b =>
        refine ⟨by simp [check], fun _ p q => askAt_of_norm ?_ p q⟩
        simp only [check, norm_super]
        by_cases hi : impl.isEmpty = true
        · simp [hi]
        · simp [hi]
      | none =>
        have hk : ∀ a b, (super h none impl none a b impl).kids = .ok impl := by
          intro a b
          simp only [kids]; split <;> rfl
        have hk' : ∀ a b, (super h none impl none a b []).kids = .ok impl := by
          intro a b
          simp [kids]
        rw [check_super, check_super, hk, hk']
        simp only
        cases hr : (checkAll impl false).1 with
        | error e => exact ⟨rfl, fun h0 => by simp at h0⟩
        | ok c => exact ⟨rfl, fun _ _ _ => rfl⟩

/-- C147: collecting afresh does not alter whether the change itself is one, nor its
description. -/
theorem C147_partial (o : Obj O) :
    (o.collect true).2.isChange = o.isChange ∧
    (o.collect true).2.getDescription = o.getDescription := by
  cases o with
  | leaf => exact ⟨rfl, rfl⟩
  | squashed => exact ⟨rfl, rfl⟩
  | super h short impl err changed desc cache =>
    simp only [collect, Bool.true_or, if_true]
    cases err <;> exact ⟨rfl, rfl⟩

/-- C147: the children collected afresh have not been checked, so that a change without a rule of
its own is ignored under any options when none of the new children is an addition or removal. -/
theorem C147_stale (x : O) (h : Hdr O) (short : Option Bool) (impl : List (Obj O)) (changed desc)
    (cache : List (Obj O)) (hi : h.ign = .inherit) (hne : impl ≠ [])
    (hun : ∀ c ∈ impl, c.isChange = false)
    (hch : (super h short impl none changed desc cache).isChange = true) :
    (isIgnored x ((super h short impl none changed desc cache).collect true).2).1 = .ok true := by
  have hall : ∀ l : List (Obj O), (∀ c ∈ l, c.isChange = false) →
      (allIgnored x l).1 = .ok true := by
    intro l hl
    induction l with
    | nil => simp [allIgnored]
    | cons c cs ih =>
      have := hl c List.mem_cons_self
      simp only [allIgnored, this, Bool.not_false, if_true]
      exact ih fun d hd => hl d (List.mem_cons_of_mem _ hd)
  have hk : (super h short impl none changed desc impl).kids = .ok impl := by
    simp only [kids]; split <;> rfl
  have hch' : (super h short impl none changed desc impl).isChange = true := hch
  simp only [collect, Bool.true_or, if_true]
  rw [isIgnored_super]
  simp only [hi, hch', hk, Bool.not_true, Bool.false_eq_true, if_false]
  have : ¬ impl.isEmpty = true := by simpa using hne
  rw [if_neg this, hall impl hun]

/-- C147 in full: after a check, collecting afresh alters no answer about the change. -/
def C147_full (O : Type) : Prop :=
  ∀ (o : Obj O), New o → (check o).1 = none → ∀ q : Ask O,
    (ask q ((check o).2.collect true).2).1 = (ask q (check o).2).1

/-- A change of two versions with one differing part. -/
def demoObj : Obj Unit :=
  super { typeName := "ClassInfoChange", label := "Class information".toList } none
    [leaf { typeName := "ClassPlatformChange", label := "Platform".toList }
      (some (.ok (true, some "Platform changed: 1.5 to 1.6".toList))) false none,
     leaf { typeName := "ClassSuperclassChange", label := "Superclass".toList }
      (some (.ok (false, none))) false none] none false none []

theorem C147_full_fails : ¬ C147_full Unit := by
  intro h
  have h1 := h demoObj rfl (by decide) (.isIgnored ())
  have h2 : (ask (.isIgnored ()) (check demoObj).2).1 = .ok (.bool false) := by decide
  have h3 : (ask (.isIgnored ()) ((check demoObj).2.collect true).2).1 = .ok (.bool true) := by
    decide
  rw [h2, h3] at h1
  exact absurd h1 (by decide)

/-! ### C148: squashing the children -/

/-- `s` is the squashed form of `c` under the options `x`. -/
def SquashOf (x : O) (c s : Obj O) : Prop :=
  ∃ b, (isIgnored x c).1 = .ok b ∧ s = squashedForm (isIgnored x c).2 b

theorem squashAll_ok (x : O) (l : List (Obj O)) {l' : List (Obj O)}
    (h : (squashAll x l).1 = .ok l') :
    l'.length = l.length ∧ ∀ (i : Nat) c s, l[i]? = some c → l'[i]? = some s → SquashOf x c s := by
  induction l generalizing l' with
  | nil => simp [squashAll] at h; subst h; simp
  | cons c cs ih =>
    rw [squashAll] at h
    simp only [squash] at h
    cases hi : (isIgnored x c).1 with
    | error e => simp [hi] at h
    | ok b =>
      simp only [hi] at h
      cases hr : (squashAll x cs).1 with
      | error e => simp [hr] at h
      | ok ss =>
        simp only [hr, Except.ok.injEq] at h
        subst h
        obtain ⟨h1, h2⟩ := ih hr
        refine ⟨by simp [h1], ?_⟩
        intro i a s ha hs
        cases i with
        | zero =>
          simp only [List.getElem?_cons_zero, Option.some.injEq] at ha hs
          subst ha; subst hs
          exact ⟨b, hi, rfl⟩
        | succ i => exact h2 i a s (by simpa using ha) (by simpa using hs)

theorem SquashOf.isChange {x : O} {c s : Obj O} (h : SquashOf x c s) :
    s.isChange = c.isChange := by
  obtain ⟨b, _, rfl⟩ := h
  have := congrArg Obj.isChange (isIgnored_norm x c).2
  simp only [norm_isChange] at this
  exact this

theorem SquashOf.isIgnored {x : O} {c s : Obj O} (h : SquashOf x c s) :
    (Obj.isIgnored x s) = ((Obj.isIgnored x c).1, s) := by
  obtain ⟨b, hb, rfl⟩ := h
  rw [hb]; simp [squashedForm, Obj.isIgnored]

theorem SquashOf.check {x : O} {c s : Obj O} (h : SquashOf x c s) : Obj.check s = (none, s) := by
  obtain ⟨b, _, rfl⟩ := h
  simp [squashedForm, Obj.check]

theorem SquashOf.hdr {x : O} {c s : Obj O} (h : SquashOf x c s) :
    s.hdr.label = c.hdr.label ∧ s.hdr.entry = c.hdr.entry ∧ s.hdr.kind = c.hdr.kind := by
  obtain ⟨b, _, rfl⟩ := h
  have := congrArg Obj.hdr (isIgnored_norm x c).2
  simp only [norm_hdr] at this
  simp [squashedForm, Obj.hdr] at this ⊢
  simp [this]

theorem SquashOf.getDescription {x : O} {c s : Obj O} (h : SquashOf x c s)
    (hd : c.getDescription ≠ []) : s.getDescription = c.getDescription := by
  obtain ⟨b, _, rfl⟩ := h
  have := congrArg Obj.getDescription (isIgnored_norm x c).2
  simp only [norm_getDescription] at this
  have hs : ∀ (h : Hdr O) oc ch (d : Str) ig, d ≠ [] →
      (squashed h oc ch d ig).getDescription = d := by
    intro h oc ch d ig hd
    simp only [Obj.getDescription, Change.orDefault, if_neg hd]
  exact (hs _ _ _ _ _ (by rw [this]; exact hd)).trans this

theorem squash_allIgnored (x : O) (l l' : List (Obj O)) (hlen : l'.length = l.length)
    (h : ∀ (i : Nat) c s, l[i]? = some c → l'[i]? = some s → SquashOf x c s) :
    (allIgnored x l').1 = (allIgnored x l).1 := by
  induction l generalizing l' with
  | nil => cases l' <;> simp_all
  | cons c cs ih =>
    cases l' with
    | nil => simp at hlen
    | cons s ss =>
      have h0 := h 0 c s rfl rfl
      have ht := ih ss (by simpa using hlen) fun i a b ha hb => h (i + 1) a b (by simpa) (by simpa)
      simp only [allIgnored, h0.isChange, h0.isIgnored]
      cases c.isChange with
      | false => simp [ht]
      | true =>
        cases hi : (Obj.isIgnored x c).1 with
        | error e => simp
        | ok b => cases b <;> simp [ht]

theorem squash_checkAll {l' : List (Obj O)}
    (h : ∀ s ∈ l', Obj.check s = (none, s)) (c : Bool) :
    checkAll l' c = (.ok (c || l'.any Obj.isChange), l') := by
  induction l' generalizing c with
  | nil => simp [checkAll]
  | cons s ss ih =>
    have h0 := h s List.mem_cons_self
    simp only [checkAll, h0]
    rw [ih fun t ht => h t (List.mem_cons_of_mem _ ht)]
    simp [Bool.or_assoc]

theorem checkAll_any (l : List (Obj O)) (c b : Bool) (h : (checkAll l c).1 = .ok b) :
    b = (c || (checkAll l c).2.any Obj.isChange) := by
  induction l generalizing c with
  | nil => simp [checkAll] at h ⊢; exact h.symm
  | cons x xs ih =>
    simp only [checkAll] at h ⊢
    cases hx : (check x).1 with
    | some e => simp [hx] at h
    | none =>
      simp only [hx] at h ⊢
      rw [ih _ h]
      simp [Bool.or_assoc]

theorem any_eq_of_forall (l l' : List (Obj O)) (hlen : l'.length = l.length)
    (h : ∀ (i : Nat) (c s : Obj O), l[i]? = some c → l'[i]? = some s → s.isChange = c.isChange) :
    l'.any Obj.isChange = l.any Obj.isChange := by
  induction l generalizing l' with
  | nil => cases l' <;> simp_all
  | cons c cs ih =>
    cases l' with
    | nil => simp at hlen
    | cons s ss =>
      simp only [List.any_cons, h 0 c s rfl rfl]
      rw [ih ss (by simpa using hlen) fun i a b ha hb => h (i + 1) a b (by simpa) (by simpa)]

/-- A change as `check` leaves it: the verdict of a composite that looks at its children is that
of the children in its cache. -/
theorem checked_super {h : Hdr O} {impl err changed desc} {cache : List (Obj O)} {o : Obj O}
    (hok : (check o).1 = none)
    (he : (check o).2 = super h none impl err changed desc cache) :
    desc = none ∧ (super h none impl err changed desc cache).kids = .ok cache ∧
    changed = cache.any Obj.isChange := by
  cases o with
  | leaf h' cmp a b =>
    cases cmp with
    | none => simp [check] at he
    | some r => cases r <;> simp [check] at he hok
  | squashed => simp [check] at he
  | super h' short impl' err' a b cache' =>
    cases short with
    | some v => simp [check] at he
    | none =>
      have hag := check_again (super h' none impl' err' a b cache')
      rw [he] at hag
      rw [check_super] at he hok
      cases hk : (super h' none impl' err' a b cache').kids with
      | error e => simp [hk] at hok
      | ok l =>
        simp only [hk] at he hok
        cases hr : (checkAll l false).1 with
        | error e => simp [hr] at hok
        | ok v =>
          simp only [hr, Obj.super.injEq] at he
          obtain ⟨rfl, _, rfl, rfl, rfl, rfl, rfl⟩ := he
          refine ⟨rfl, ?_, by simpa using checkAll_any l false v hr⟩
          have hlen := checkAll_length l false
          by_cases hemp : (checkAll l false).2.isEmpty = true
          · have h0 := List.isEmpty_iff.1 hemp
            rw [h0] at hlen ⊢
            have hl0 : l = [] := List.length_eq_zero_iff.1 hlen.symm
            subst hl0
            by_cases hce : cache'.isEmpty = true
            · cases err' with
              | some e => simp [kids, hce] at hk
              | none =>
                simp only [kids, hce, if_true, Except.ok.injEq] at hk
                subst hk; rfl
            · simp only [kids, if_neg hce, Except.ok.injEq] at hk
              subst hk; simp at hce
          · simp only [kids, if_neg hemp]

/-- The change after its children were squashed, in terms of the children. -/
theorem squashChildren_super {x : O} {h : Hdr O} {short impl err changed desc}
    {cache : List (Obj O)}
    (hok : (squashChildren x (super h short impl err changed desc cache)).1 = none) :
    ∃ l l', (super h short impl err changed desc cache).kids = .ok l ∧
      l'.length = l.length ∧
      (∀ (i : Nat) c s, l[i]? = some c → l'[i]? = some s → SquashOf x c s) ∧
      (squashChildren x (super h short impl err changed desc cache)).2 =
        super h short impl err changed desc l' ∧
      (super h short impl err changed desc l').kids = .ok l' := by
  have hc := collect_fst (super h short impl err changed desc cache)
  have hset := collect_setCache (super h short impl err changed desc cache)
  simp only [squashChildren] at hok ⊢
  generalize hg : (super h short impl err changed desc cache).collect false = ab at *
  obtain ⟨a, b⟩ := ab
  simp only at hc hset hok ⊢
  subst hc
  cases hk : (super h short impl err changed desc cache).kids with
  | error e => simp [hk] at hok
  | ok l =>
    simp only [hk] at hok ⊢
    cases hs : (squashAll x l).1 with
    | error e => simp [hs] at hok
    | ok l' =>
      obtain ⟨h1, h2⟩ := squashAll_ok x l hs
      refine ⟨l, l', rfl, h1, h2, ?_, ?_⟩
      · simp only [hset]; rfl
      · by_cases hemp : l'.isEmpty = true
        · have h0 := List.isEmpty_iff.1 hemp
          subst h0
          have hl0 : l = [] := List.length_eq_zero_iff.1 h1.symm
          subst hl0
          by_cases hce : cache.isEmpty = true
          · cases err with
            | some e => simp [kids, hce] at hk
            | none =>
              simp only [kids, hce, if_true, Except.ok.injEq] at hk
              subst hk; rfl
          · simp only [kids, if_neg hce, Except.ok.injEq] at hk
            subst hk; simp at hce
        · simp only [kids, if_neg hemp]

theorem checked_short {h : Hdr O} {b : Bool} {impl err changed desc} {cache : List (Obj O)}
    {o : Obj O} (he : (check o).2 = super h (some b) impl err changed desc cache) :
    changed = b ∧ desc = none := by
  have h1 := check_again o
  rw [he] at h1
  have h2 := congrArg Prod.snd h1
  rw [he] at h2
  simp only [check, Obj.super.injEq] at h2
  exact ⟨h2.2.2.2.2.1.symm, h2.2.2.2.2.2.1.symm⟩

theorem askAt_one (i : Nat) (q : Ask O) (o : Obj O) :
    (askAt [i] q o).1 = match o.kids with
      | .error e => .error e
      | .ok subs => match subs[i]? with
        | none => .error .indexError
        | some c => (ask q c).1 := by
  have hc := collect_fst o
  rw [askAt]
  generalize o.collect false = ab at hc
  obtain ⟨a, b⟩ := ab
  simp only at hc
  subst hc
  cases o.kids with
  | error e => rfl
  | ok l => simp only; cases l[i]? <;> rfl

/-- C148: after squashing the children of a checked change, however often it is examined or
checked again, it gives the same verdict as before: the same answers about itself under the
options used, and the same about each child. -/
theorem C148_squash (o : Obj O) (x : O) (hist : List (Call O)) (hok : (check o).1 = none)
    (hsq : (squashChildren x (check o).2).1 = none) :
    let now := run (squashChildren x (check o).2).2 hist
    (check now).1 = none ∧
    (∀ q ∈ [Ask.isChange, .description, .label, .entry, .isIgnored x, .count],
      (askAt [] q now).1 = (askAt [] q (check o).2).1) ∧
    (∀ i, ∀ q ∈ [Ask.isChange, .label, .entry, .isIgnored x],
      (askAt [i] q now).1 = (askAt [i] q (check o).2).1) ∧
    (∀ i d, d ≠ [] → (askAt [i] .description (check o).2).1 = .ok (.text d) →
      (askAt [i] .description now).1 = .ok (.text d)) := by
  intro now
  have triv : (squashChildren x (check o).2).2 = (check o).2 →
      (check now).1 = none ∧
      (∀ q ∈ [Ask.isChange, .description, .label, .entry, .isIgnored x, .count],
        (askAt [] q now).1 = (askAt [] q (check o).2).1) ∧
      (∀ i, ∀ q ∈ [Ask.isChange, .label, .entry, .isIgnored x],
        (askAt [i] q now).1 = (askAt [i] q (check o).2).1) ∧
      (∀ i d, d ≠ [] → (askAt [i] .description (check o).2).1 = .ok (.text d) →
        (askAt [i] .description now).1 = .ok (.text d)) := by
    intro he
    have hnow : now = run (check o).2 hist := by simp only [now, he]
    rw [hnow]
    exact ⟨by rw [C146_again, hok], fun q _ => C146_stable o hist [] q,
      fun i q _ => C146_stable o hist [i] q, fun i d _ hd => by rw [C146_stable, hd]⟩
  cases ho : (check o).2 with
  | leaf h cmp changed desc =>
    rw [← ho]; apply triv; rw [ho]; simp [squashChildren, collect, squashAll, setCache]
  | squashed h oc changed desc ignored =>
    rw [← ho]; apply triv; rw [ho]; simp [squashChildren, collect, squashAll, setCache]
  | super h short impl err changed desc cache =>
    rw [ho] at hsq
    obtain ⟨l, l', hkl, hlen, hsq', hst, hkl'⟩ := squashChildren_super hsq
    have hany := any_eq_of_forall l l' hlen fun i c s hc hs => (hsq' i c s hc hs).isChange
    have hcheckl' : ∀ s ∈ l', Obj.check s = (none, s) := by
      intro s hs
      obtain ⟨i, hi⟩ := List.mem_iff_getElem?.1 hs
      have hlt : i < l.length := by
        rw [← hlen]; exact (List.getElem?_eq_some_iff.1 hi).1
      exact (hsq' i l[i] s (List.getElem?_eq_getElem hlt) hi).check
    have hfix : check (super h short impl err changed desc l') =
        (none, super h short impl err changed desc l') := by
      cases short with
      | some b =>
        obtain ⟨rfl, rfl⟩ := checked_short ho
        simp [check]
      | none =>
        obtain ⟨rfl, hk, hch⟩ := checked_super hok ho
        have hl : l = cache := by rw [hk] at hkl; simpa using hkl.symm
        rw [check_super, hkl']
        simp only [squash_checkAll hcheckl', Bool.false_or, hany, hl, ← hch]
    have hsettled : Settled (super h short impl err changed desc l') := by
      rw [Settled, hfix]
    have hnow : now.norm = (super h short impl err changed desc l').norm := by
      have : now = run (super h short impl err changed desc l') hist := by
        simp only [now, ho, hst]
      rw [this]; exact run_norm hsettled hist
    have hidx : ∀ i : Nat, (l[i]? = none ∧ l'[i]? = none) ∨
        ∃ c s, l[i]? = some c ∧ l'[i]? = some s ∧ SquashOf x c s := by
      intro i
      by_cases hi : i < l.length
      · right
        have hi' : i < l'.length := by rw [hlen]; exact hi
        exact ⟨l[i], l'[i], List.getElem?_eq_getElem hi, List.getElem?_eq_getElem hi',
          hsq' i _ _ (List.getElem?_eq_getElem hi) (List.getElem?_eq_getElem hi')⟩
      · left
        exact ⟨List.getElem?_eq_none (by omega), List.getElem?_eq_none (by omega)⟩
    refine ⟨by rw [(check_of_norm hnow).1, hfix], ?_, ?_, ?_⟩
    · intro q hq
      rw [askAt_of_norm hnow]
      simp only [List.mem_cons, List.not_mem_nil, or_false] at hq
      rcases hq with rfl | rfl | rfl | rfl | rfl | rfl
      · rfl
      · rfl
      · rfl
      · rfl
      · have hemp : l'.isEmpty = l.isEmpty := by
          cases l <;> cases l' <;> simp_all
        have hchg : (super h short impl err changed desc l').isChange =
            (super h short impl err changed desc cache).isChange := rfl
        simp only [askAt, ask, isIgnored_super, hkl, hkl', hchg, hemp]
        have hall := squash_allIgnored x l l' hlen hsq'
        cases h.ign with
        | inherit =>
          simp only
          split
          · rfl
          · split
            · rfl
            · simp only [hall]
        | only rule => rfl
        | orElse rule =>
          simp only
          split
          · rfl
          · split
            · rfl
            · split
              · rfl
              · simp only [hall]
      · simp only [askAt, ask, collect_fst, hkl, hkl', Except.map, hlen]
    · intro i q hq
      rw [askAt_of_norm hnow, askAt_one, askAt_one, hkl, hkl']
      simp only
      rcases hidx i with ⟨h1, h2⟩ | ⟨c, s, h1, h2, hs⟩
      · rw [h1, h2]
      · rw [h1, h2]
        simp only [List.mem_cons, List.not_mem_nil, or_false] at hq
        rcases hq with rfl | rfl | rfl | rfl
        · simp only [ask, hs.isChange]
        · simp only [ask, hs.hdr.1]
        · simp only [ask, hs.hdr.2.1]
        · simp only [ask, hs.isIgnored]
    · intro i d hd
      rw [askAt_of_norm hnow, askAt_one, askAt_one, hkl, hkl']
      simp only
      rcases hidx i with ⟨h1, h2⟩ | ⟨c, s, h1, h2, hs⟩
      · rw [h1]; intro h; cases h
      · rw [h1, h2]
        simp only [ask]
        intro hd'
        have hcd : c.getDescription = d := by simpa using hd'
        rw [hs.getDescription (by rw [hcd]; exact hd), hcd]

/-! ### Examples -/

example : (check demoObj).1 = none ∧
    (askAt [] .isChange demoObj).1 = .ok (.bool false) ∧
    (askAt [] .isChange (check demoObj).2).1 = .ok (.bool true) ∧
    (askAt [0] .description (check demoObj).2).1 =
      .ok (.text "Platform changed: 1.5 to 1.6".toList) ∧
    (askAt [1] .isChange (check demoObj).2).1 = .ok (.bool false) ∧
    (askAt [2] .isChange (check demoObj).2).1 = .error .indexError := by decide

/-- A change whose second part cannot be compared. -/
def brokenObj : Obj Unit :=
  super { typeName := "ClassInfoChange", label := "Class information".toList } none
    [leaf { typeName := "ClassPlatformChange", label := "Platform".toList }
      (some (.ok (true, none))) false none,
     leaf { typeName := "ClassSuperclassChange", label := "Superclass".toList }
      (some (.error .indexError)) false none] none false none []

/-- The failed check leaves the first part checked and the whole unchecked. -/
example : (check brokenObj).1 = some .indexError ∧
    (askAt [0] .isChange (check brokenObj).2).1 = .ok (.bool true) ∧
    (askAt [] .isChange (check brokenObj).2).1 = .ok (.bool false) ∧
    (check (run (check brokenObj).2 [.ask [1] .description, .check])).1 = some .indexError := by
  decide

example : New demoObj ∧ NoErr demoObj := by
  simp [New, NoErr, NoErrAll, demoObj]

example : (squashChildren () (check demoObj).2).1 = none ∧
    (askAt [0] .description (run (squashChildren () (check demoObj).2).2 [.check])).1 =
      .ok (.text "Platform changed: 1.5 to 1.6".toList) := by decide

end Obj
end Javatools
