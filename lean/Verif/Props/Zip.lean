import Verif.Model.Zip
import Verif.Proofs.Utf8
/-
C55 and C56 (comparison of archives), C57 (chunked check sums), C58 (totals).
-/
namespace Javatools

/-! ### C57 -/

theorem readSize_prefix {α : Type} (size : Option Int) (b : List α) :
    b = readSize size b ++ b.drop (readSize size b).length := by
  unfold readSize
  split
  · simp
  · split
    · simp
    · rename_i n _
      rw [List.length_take]
      by_cases h : n.toNat ≤ b.length
      · rw [Nat.min_eq_left h, List.take_append_drop]
      · rw [Nat.min_eq_right (by omega), List.take_of_length_le (by omega), List.drop_length,
          List.append_nil]

theorem readSize_nil {α : Type} {size : Option Int} (hs : size ≠ some 0) {b : List α}
    (h : readSize size b = []) : b = [] := by
  unfold readSize at h
  split at h
  · exact h
  · split at h
    · exact h
    · rename_i n hn
      rcases List.take_eq_nil_iff.1 h with h | h
      · have : n = 0 := by omega
        subst this
        exact absurd rfl hs
      · exact h

theorem chunksAux_flatten {α : Type} {size : Option Int} (hs : size ≠ some 0) (fuel : Nat)
    (b : List α) (hf : b.length ≤ fuel) : (chunksAux size fuel b).flatten = b := by
  induction fuel generalizing b with
  | zero =>
    have : b = [] := List.eq_nil_of_length_eq_zero (by omega)
    subst this
    rfl
  | succ fuel ih =>
    simp only [chunksAux]
    split
    · rename_i h
      rw [readSize_nil hs h]
      rfl
    · rename_i x c h
      have hp := readSize_prefix size b
      rw [h] at hp
      rw [List.flatten_cons, ih]
      · exact hp.symm
      · rw [List.length_drop]
        simp only [List.length_cons]
        omega

/-- C57: the chunks put together are the data, whatever the size of the chunks (not 0). -/
theorem C57_chunks {α : Type} (size : Option Int) (hs : size ≠ some 0) (b : List α) :
    (chunks size b).flatten = b := chunksAux_flatten hs _ b (Nat.le_refl _)

/-- C57: each chunk but the last one has the given size. -/
theorem C57_chunk_size {α : Type} (n : Nat) (b : List α) :
    ∀ c ∈ chunks (some (n : Int)) b, c ≠ [] ∧ c.length ≤ n := by
  unfold chunks
  generalize b.length = fuel
  induction fuel generalizing b with
  | zero => simp [chunksAux]
  | succ fuel ih =>
    intro c hc
    simp only [chunksAux] at hc
    split at hc
    · simp at hc
    · rename_i x d h
      rcases List.mem_cons.1 hc with rfl | hc
      · refine ⟨by simp, ?_⟩
        rw [← h]
        unfold readSize
        simp only
        rw [if_neg (by omega), List.length_take]
        omega
      · exact ih _ c hc

theorem crc32_append (a b : Bytes) (v : BitVec 32) : crc32 b (crc32 a v) = crc32 (a ++ b) v := by
  unfold crc32
  rw [BitVec.not_not, List.foldl_append]

theorem crc32_nil (v : BitVec 32) : crc32 [] v = v := by
  unfold crc32
  rw [List.foldl_nil, BitVec.not_not]

theorem crc32_chunks (cs : List Bytes) (v : BitVec 32) :
    cs.foldl (fun check data => crc32 data check) v = crc32 cs.flatten v := by
  induction cs generalizing v with
  | nil => rw [List.foldl_nil, List.flatten_nil, crc32_nil]
  | cons c cs ih => rw [List.foldl_cons, ih, List.flatten_cons, crc32_append]

/-- C57: `file_crc32` is the CRC-32 of the content for every chunk size (positive, negative or
`None`). -/
theorem C57_crc (b : Bytes) (size : Option Int) (hs : size ≠ some 0) :
    fileCrc32 b size = crc32 b 0 := by
  unfold fileCrc32
  rw [crc32_chunks, C57_chunks size hs]

/-- With chunks of no bytes nothing is read. -/
theorem C57_zero (b : Bytes) : fileCrc32 b (some 0) = 0 := by
  unfold fileCrc32 chunks
  cases b with
  | nil => rfl
  | cons x b => simp [chunksAux, readSize]

/-- A streaming algorithm: updating with two pieces is updating with both put together (the
documented behaviour of `hashlib`). -/
structure Hasher.Lawful (h : Hasher) : Prop where
  append : ∀ s a b, h.update (h.update s a) b = h.update s (a ++ b)
  empty : h.update h.init [] = h.init

theorem Hasher.Lawful.chunked {h : Hasher} (hl : h.Lawful) (cs : List Bytes) :
    cs.foldl h.update h.init = h.update h.init cs.flatten := by
  have key : ∀ (cs : List Bytes) (d : Bytes), cs.foldl h.update (h.update h.init d) =
      h.update h.init (d ++ cs.flatten) := by
    intro cs
    induction cs with
    | nil => simp
    | cons c cs ih =>
      intro d
      rw [List.foldl_cons, hl.append, ih, List.flatten_cons, List.append_assoc]
  have := key cs []
  rw [hl.empty, List.nil_append] at this
  exact this

/-- C57: `digest_chunks` gives the digests of the data for every way of cutting it into chunks. -/
theorem C57_digest (cs : List Bytes) (algs : List Hasher) (hl : ∀ a ∈ algs, a.Lawful) (b : Bytes)
    (hb : cs.flatten = b) :
    digestChunks cs algs = algs.map fun a => b64encode (a.digest (a.update a.init b)) := by
  unfold digestChunks
  apply List.map_congr_left
  intro a ha
  rw [(hl a ha).chunked, hb]

/-- C57: in particular for the chunks of a file or archive entry. -/
theorem C57_file_digest (b : Bytes) (size : Option Int) (hs : size ≠ some 0) (algs : List Hasher)
    (hl : ∀ a ∈ algs, a.Lawful) :
    digestChunks (chunks size b) algs =
      algs.map fun a => b64encode (a.digest (a.update a.init b)) :=
  C57_digest _ _ hl _ (C57_chunks size hs b)

/-- A check sum as an algorithm. -/
def crcHasher : Hasher :=
  { State := BitVec 32, init := 0, update := fun s b => crc32 b s, digest := fun s => [s.toNat.toUInt8] }

example : digestChunks [[1, 2], [], [3]] [crcHasher] = digestChunks [[1, 2, 3]] [crcHasher] := by
  have hl : ∀ a ∈ [crcHasher], a.Lawful := by
    intro a ha
    rw [List.mem_singleton.1 ha]
    exact ⟨fun s a b => crc32_append a b s, crc32_nil 0⟩
  rw [C57_digest _ _ hl [1, 2, 3] rfl, C57_digest _ _ hl [1, 2, 3] rfl]

example : fileCrc32 [1, 2, 3, 4, 5] (some 2) = crc32 [1, 2, 3, 4, 5] 0 ∧
    crc32 [1, 2, 3, 4, 5] 0 ≠ 0 := by decide +kernel

/-! ### C55 -/

/-- `order` lists the members of a set, each once. -/
def IsSetOrder (order : List Str → List Str) : Prop :=
  ∀ l, (order l).Nodup ∧ ∀ x, x ∈ order l ↔ x ∈ l

/-- The content of the last entry of that name. -/
def HasContent (a : Archive) (f : Str) (b : Bytes) : Prop :=
  ∃ pre e post, a.entries = pre ++ e :: post ∧ e.name = f ∧ e.raw = b ∧ ∀ x ∈ post, x.name ≠ f

def names (a : Archive) : List Str := a.entries.map ZEntry.name

def IsDirName (f : Str) : Prop := ∃ d, f = d ++ ['/']

/-- The sizes and check sums recorded for files are right. -/
def Consistent (a : Archive) : Prop :=
  ∀ e ∈ a.entries, ¬ IsDirName e.name → e.size = e.raw.length ∧ e.crc = crc32 e.raw 0

/-- The events that a comparison should give. -/
structure Partition (l r : Archive) (evs : List (Event × Str)) : Prop where
  once : (evs.map Prod.snd).Nodup
  left : ∀ f, (.left, f) ∈ evs ↔ f ∈ names l ∧ f ∉ names r
  right : ∀ f, (.right, f) ∈ evs ↔ f ∉ names l ∧ f ∈ names r
  same : ∀ f, (.same, f) ∈ evs ↔ ¬ IsDirName f ∧ ∃ b, HasContent l f b ∧ HasContent r f b
  diff : ∀ f, (.diff, f) ∈ evs ↔
    ¬ IsDirName f ∧ ∃ b c, HasContent l f b ∧ HasContent r f c ∧ b ≠ c

/-- The four lists: added, removed, altered, same. -/
def Grouped (evs : List (Event × Str)) (g : List Str × List Str × List Str × List Str) : Prop :=
  (∀ f, f ∈ g.1 ↔ (.right, f) ∈ evs) ∧ (∀ f, f ∈ g.2.1 ↔ (.left, f) ∈ evs) ∧
  (∀ f, f ∈ g.2.2.1 ↔ (.diff, f) ∈ evs) ∧ (∀ f, f ∈ g.2.2.2 ↔ (.same, f) ∈ evs) ∧
  (g.1 ++ g.2.1 ++ g.2.2.1 ++ g.2.2.2).Nodup

/-- C55 as stated: for all archives, real and exploded, with correct sizes and check sums. -/
def C55_full : Prop :=
  ∀ (order : List Str → List Str) (l r : Archive), IsSetOrder order → l.closed = false →
    r.closed = false → Consistent l → Consistent r →
    ∃ evs g, compareZips order l r = (evs, none) ∧ Partition l r evs ∧
      collectZips order l r = .ok g ∧ Grouped evs g

theorem find_spec (a : Archive) (f : Str) (e : ZEntry) : a.find f = some e ↔
    ∃ pre post, a.entries = pre ++ e :: post ∧ e.name = f ∧ ∀ x ∈ post, x.name ≠ f := by
  unfold Archive.find
  rw [List.find?_eq_some_iff_append]
  constructor
  · rintro ⟨h1, as, bs, h2, h3⟩
    refine ⟨bs.reverse, as.reverse, ?_, by simpa using h1, ?_⟩
    · have := congrArg List.reverse h2
      simpa using this
    · intro x hx
      have := h3 x (by simpa using hx)
      simpa using this
  · rintro ⟨pre, post, h1, h2, h3⟩
    refine ⟨by simpa using h2, post.reverse, pre.reverse, by rw [h1]; simp, ?_⟩
    intro x hx
    have := h3 x (by simpa using hx)
    simpa using this

theorem find_isSome (a : Archive) (f : Str) (h : f ∈ names a) : ∃ e, a.find f = some e := by
  obtain ⟨e, he, rfl⟩ := List.mem_map.1 h
  cases hf : a.find e.name with
  | some x => exact ⟨x, rfl⟩
  | none =>
    unfold Archive.find at hf
    rw [List.find?_eq_none] at hf
    exact absurd (decide_eq_true (Eq.refl e.name)) (hf e (List.mem_reverse.2 he))

theorem hasContent_iff (a : Archive) (f : Str) (b : Bytes) :
    HasContent a f b ↔ ∃ e, a.find f = some e ∧ e.raw = b := by
  unfold HasContent
  constructor
  · rintro ⟨pre, e, post, h1, h2, h3, h4⟩
    exact ⟨e, (find_spec a f e).2 ⟨pre, post, h1, h2, h4⟩, h3⟩
  · rintro ⟨e, h1, h2⟩
    obtain ⟨pre, post, h3, h4, h5⟩ := (find_spec a f e).1 h1
    exact ⟨pre, e, post, h3, h4, h2, h5⟩

theorem hasContent_name {a : Archive} {f : Str} {b : Bytes} (h : HasContent a f b) : f ∈ names a := by
  obtain ⟨pre, e, post, h1, h2, _, _⟩ := h
  exact List.mem_map.2 ⟨e, by rw [h1]; simp, h2⟩

theorem isDirName_iff (f : Str) : IsDirName f ↔ f.getLast? = some '/' := by
  unfold IsDirName
  rw [List.getLast?_eq_some_iff]

theorem getLast?_some_of_ne {f : Str} (h : f ≠ []) : ∃ c, f.getLast? = some c :=
  ⟨_, List.getLast?_eq_some_getLast h⟩

/-- The event for a name of the left archive. -/
def leftEvent (rl : List Str) (D : Str → Bool) (f : Str) : Option (Event × Str) :=
  if f ∈ rl then
    if f.getLast? = some '/' then none else some (if D f then .diff else .same, f)
  else some (.left, f)

theorem compareLeft_spec {l r : Archive} {rl : List Str} {D : Str → Bool} {fs : List Str}
    (hne : ∀ f ∈ fs, f ∈ rl → f ≠ [])
    (hD : ∀ f ∈ fs, f ∈ rl → f.getLast? ≠ some '/' → different l r f = .ok (D f)) :
    compareLeft l r rl fs = (fs.filterMap (leftEvent rl D), none) := by
  induction fs with
  | nil => rfl
  | cons f fs ih =>
    have ih := ih (fun x hx => hne x (by simp [hx])) fun x hx => hD x (by simp [hx])
    simp only [compareLeft, ih]
    by_cases hf : f ∈ rl
    · rw [if_pos hf]
      obtain ⟨c, hc⟩ := getLast?_some_of_ne (hne f (by simp) hf)
      rw [hc]
      by_cases hs : c = '/'
      · subst hs
        simp only [List.filterMap_cons, leftEvent, if_pos hf, hc, if_true, List.nil_append]
      · have hns : f.getLast? ≠ some '/' := by rw [hc]; simpa using hs
        have hd := hD f (by simp) hf hns
        split
        · rename_i heq
          simp at heq
        · rename_i heq
          exact absurd (by simpa using heq) hs
        · rw [hd]
          simp only [List.filterMap_cons, leftEvent, if_pos hf, if_neg hns]
          cases D f <;> rfl
    · rw [if_neg hf]
      simp only [List.filterMap_cons, leftEvent, if_neg hf]
      rfl

theorem mem_leftEvents {rl : List Str} {D : Str → Bool} {fs : List Str} {p : Event × Str} :
    p ∈ fs.filterMap (leftEvent rl D) ↔ p.2 ∈ fs ∧
      ((p.2 ∉ rl ∧ p.1 = .left) ∨
        (p.2 ∈ rl ∧ p.2.getLast? ≠ some '/' ∧ p.1 = if D p.2 then .diff else .same)) := by
  obtain ⟨ev, f⟩ := p
  rw [List.mem_filterMap]
  constructor
  · rintro ⟨g, hg, h⟩
    unfold leftEvent at h
    split at h
    · rename_i hr
      split at h
      · simp at h
      · rename_i hd
        simp only [Option.some.injEq, Prod.mk.injEq] at h
        obtain ⟨h1, rfl⟩ := h
        exact ⟨hg, .inr ⟨hr, hd, h1.symm⟩⟩
    · rename_i hr
      simp only [Option.some.injEq, Prod.mk.injEq] at h
      obtain ⟨h1, rfl⟩ := h
      exact ⟨hg, .inl ⟨hr, h1.symm⟩⟩
  · rintro ⟨hf, ⟨hr, h1⟩ | ⟨hr, hd, h1⟩⟩
    · refine ⟨f, hf, ?_⟩
      simp only at hr h1
      simp only [leftEvent, if_neg hr, h1]
    · refine ⟨f, hf, ?_⟩
      simp only at hr hd h1
      simp only [leftEvent, if_pos hr, if_neg hd, h1]

theorem leftEvents_nodup {rl : List Str} {D : Str → Bool} {fs : List Str} (h : fs.Nodup) :
    ((fs.filterMap (leftEvent rl D)).map Prod.snd).Nodup := by
  induction fs with
  | nil => simp
  | cons f fs ih =>
    rw [List.nodup_cons] at h
    have ih := ih h.2
    rw [List.filterMap_cons]
    split
    · exact ih
    · rename_i p hp
      rw [List.map_cons, List.nodup_cons]
      refine ⟨?_, ih⟩
      have hpf : p.2 = f := by
        unfold leftEvent at hp
        split at hp
        · split at hp
          · simp at hp
          · rw [← Option.some.inj hp]
        · rw [← Option.some.inj hp]
      rw [hpf]
      intro hm
      obtain ⟨q, hq, hq2⟩ := List.mem_map.1 hm
      have := (mem_leftEvents.1 hq).1
      rw [hq2] at this
      exact h.1 this

/-- What `compare_zips` does when every common file can be compared. -/
theorem compareZips_spec {order : List Str → List Str} (ho : IsSetOrder order) {l r : Archive}
    {ln rn : List Str} (hl : l.namelist = .ok ln) (hr : r.namelist = .ok rn) {D : Str → Bool}
    (hne : ∀ f ∈ ln, f ∈ rn → f ≠ [])
    (hD : ∀ f ∈ ln, f ∈ rn → f.getLast? ≠ some '/' → different l r f = .ok (D f)) :
    ∃ evs, compareZips order l r = (evs, none) ∧ (evs.map Prod.snd).Nodup ∧
      (∀ f, (.left, f) ∈ evs ↔ f ∈ ln ∧ f ∉ rn) ∧ (∀ f, (.right, f) ∈ evs ↔ f ∉ ln ∧ f ∈ rn) ∧
      (∀ f, (.same, f) ∈ evs ↔ f ∈ ln ∧ f ∈ rn ∧ f.getLast? ≠ some '/' ∧ D f = false) ∧
      ∀ f, (.diff, f) ∈ evs ↔ f ∈ ln ∧ f ∈ rn ∧ f.getLast? ≠ some '/' ∧ D f = true := by
  have hmem : ∀ f, f ∈ order ln ↔ f ∈ ln := (ho ln).2
  have hleft := compareLeft_spec (l := l) (r := r) (rl := rn) (D := D) (fs := order ln)
    (fun f hf => hne f ((hmem f).1 hf)) (fun f hf => hD f ((hmem f).1 hf))
  refine ⟨(order ln).filterMap (leftEvent rn D) ++
      (order (rn.filter fun f => f ∉ ln)).map fun f => (.right, f),
    by unfold compareZips; rw [hl]; simp only [hr, hleft], ?_, ?_, ?_, ?_, ?_⟩
  · rw [List.map_append, List.nodup_append]
    refine ⟨leftEvents_nodup (ho ln).1, ?_, ?_⟩
    · rw [List.map_map]
      have : (Prod.snd ∘ fun f : Str => ((Event.right : Event), f)) = id := rfl
      rw [this, List.map_id]
      exact (ho _).1
    · intro a ha b hb hab
      subst hab
      obtain ⟨p, hp, rfl⟩ := List.mem_map.1 ha
      obtain ⟨q, hq, hq2⟩ := List.mem_map.1 hb
      obtain ⟨g, hg, rfl⟩ := List.mem_map.1 hq
      simp only at hq2
      have h1 := (hmem _).1 (mem_leftEvents.1 hp).1
      have h2 := ((ho _).2 g).1 hg
      rw [hq2] at h2
      simp only [List.mem_filter, decide_eq_true_eq] at h2
      exact h2.2 h1
  all_goals
    intro f
    rw [List.mem_append, mem_leftEvents]
    simp only [hmem, List.mem_map, Prod.mk.injEq, reduceCtorEq, false_and, exists_false, or_false,
      and_false, and_true, exists_eq_right, true_and]
  · by_cases hf : f ∈ rn
    · simp only [hf, not_true_eq_false, false_or, true_and, and_false, iff_false, not_and]
      intro _ _ h
      cases hd : D f <;> simp [hd] at h
    · simp [hf]
  · rw [(ho _).2]
    simp only [List.mem_filter, decide_eq_true_eq]
    constructor
    · intro h
      cases hd : D f <;> simp [hd] at h <;> exact ⟨h.2, h.1⟩
    · rintro ⟨h1, h2⟩
      exact .inr ⟨h2, h1⟩
  · cases hd : D f <;> simp
  · cases hd : D f <;> simp

theorem collect_grouped {order : List Str → List Str} {l r : Archive} {evs : List (Event × Str)}
    (h : compareZips order l r = (evs, none)) (hn : (evs.map Prod.snd).Nodup) :
    ∃ g, collectZips order l r = .ok g ∧ Grouped evs g := by
  have hmem : ∀ (ev : Event) (f : Str),
      f ∈ (evs.filter fun p => p.1 = ev).map Prod.snd ↔ (ev, f) ∈ evs := by
    intro ev f
    rw [List.mem_map]
    constructor
    · rintro ⟨⟨a, b⟩, h1, rfl⟩
      rw [List.mem_filter] at h1
      have : a = ev := by simpa using h1.2
      rw [← this]
      exact h1.1
    · intro h1
      exact ⟨(ev, f), by rw [List.mem_filter]; exact ⟨h1, by simp⟩, rfl⟩
  refine ⟨_, by unfold collectZips; rw [h], fun f => hmem _ f, fun f => hmem _ f, fun f => hmem _ f,
    fun f => hmem _ f, ?_⟩
  have hsub : ∀ ev : Event, ((evs.filter fun p => p.1 = ev).map Prod.snd).Nodup :=
    fun ev => List.Nodup.sublist (List.filter_sublist.map _) hn
  have hdisj : ∀ (a b : Event) (f : Str), (a, f) ∈ evs → (b, f) ∈ evs → a = b := by
    clear h hmem hsub
    induction evs with
    | nil => simp
    | cons p evs ih =>
      rw [List.map_cons, List.nodup_cons] at hn
      intro a b f h1 h2
      rcases List.mem_cons.1 h1 with h1 | h1
      · rcases List.mem_cons.1 h2 with h2 | h2
        · rw [← h1] at h2
          exact (Prod.mk.inj h2).1.symm
        · exact absurd (List.mem_map.2 ⟨_, h2, by rw [← h1]⟩) hn.1
      · rcases List.mem_cons.1 h2 with h2 | h2
        · exact absurd (List.mem_map.2 ⟨_, h1, by rw [← h2]⟩) hn.1
        · exact ih hn.2 a b f h1 h2
  simp only [List.nodup_append, hsub, true_and, List.mem_append, hmem]
  refine ⟨⟨?_, ?_⟩, ?_⟩
  · rintro a h1 b h2 rfl
    exact absurd (hdisj _ _ _ h1 h2) (by decide)
  · rintro a (h1 | h1) b h2 rfl
    · exact absurd (hdisj _ _ _ h1 h2) (by decide)
    · exact absurd (hdisj _ _ _ h1 h2) (by decide)
  · rintro a ((h1 | h1) | h1) b h2 rfl
    · exact absurd (hdisj _ _ _ h1 h2) (by decide)
    · exact absurd (hdisj _ _ _ h1 h2) (by decide)
    · exact absurd (hdisj _ _ _ h1 h2) (by decide)

/-- The comparison chunk by chunk is the comparison of the whole. -/
theorem chunksDiffer_iff (as bs : List Payload) : chunksDiffer as bs = true ↔ as ≠ bs := by
  induction as generalizing bs with
  | nil => cases bs <;> simp [chunksDiffer]
  | cons a as ih =>
    cases bs with
    | nil => simp [chunksDiffer]
    | cons b bs =>
      simp only [chunksDiffer]
      split
      · rename_i h
        simp [h]
      · rename_i h
        have h : a = b := by simpa using h
        rw [ih, h]
        simp

theorem map_inj_list {α β : Type} {f : α → β} (hf : ∀ x y, f x = f y → x = y) {as bs : List α}
    (h : as.map f = bs.map f) : as = bs := by
  induction as generalizing bs with
  | nil => cases bs with
    | nil => rfl
    | cons b bs => simp at h
  | cons a as ih =>
    cases bs with
    | nil => simp at h
    | cons b bs =>
      simp only [List.map_cons, List.cons.injEq] at h
      rw [hf _ _ h.1, ih h.2]

theorem chunks_inj {α : Type} {a b : List α} (h : chunks (some 16384) a = chunks (some 16384) b) :
    a = b := by
  have := congrArg List.flatten h
  rwa [C57_chunks _ (by simp), C57_chunks _ (by simp)] at this

theorem bytes_differ (a b : Bytes) :
    chunksDiffer (Payload.bytes a).chunks (Payload.bytes b).chunks = decide (a ≠ b) := by
  rw [Bool.eq_iff_iff, chunksDiffer_iff, decide_eq_true_eq]
  apply not_congr
  constructor
  · intro h
    exact chunks_inj (map_inj_list (f := Payload.bytes) (by simp) h)
  · rintro rfl; rfl

theorem text_differ (a b : Str) :
    chunksDiffer (Payload.text a).chunks (Payload.text b).chunks = decide (a ≠ b) := by
  rw [Bool.eq_iff_iff, chunksDiffer_iff, decide_eq_true_eq]
  apply not_congr
  constructor
  · intro h
    exact chunks_inj (map_inj_list (f := Payload.text) (by simp) h)
  · rintro rfl; rfl

theorem mixed_differ (a : Str) (b : Bytes) (h : a ≠ [] ∨ b ≠ []) :
    chunksDiffer (Payload.text a).chunks (Payload.bytes b).chunks = true ∧
      chunksDiffer (Payload.bytes b).chunks (Payload.text a).chunks = true := by
  have key : (Payload.text a).chunks ≠ (Payload.bytes b).chunks := by
    intro he
    simp only [Payload.chunks] at he
    have hn : chunks (some 16384) a = [] := by
      cases hc : chunks (some 16384) a with
      | nil => rfl
      | cons x xs =>
        rw [hc] at he
        cases hd : chunks (some 16384) b with
        | nil => rw [hd] at he; simp at he
        | cons y ys => rw [hd] at he; simp at he
    rw [hn] at he
    have hm : chunks (some 16384) b = [] := by
      cases hd : chunks (some 16384) b with
      | nil => rfl
      | cons y ys => rw [hd] at he; simp at he
    have h1 := C57_chunks (some 16384) (by simp) a
    have h2 := C57_chunks (some 16384) (by simp) b
    rw [hn] at h1
    rw [hm] at h2
    rcases h with h | h
    · exact h h1.symm
    · exact h h2.symm
  exact ⟨(chunksDiffer_iff _ _).2 key, (chunksDiffer_iff _ _).2 fun he => key he.symm⟩

theorem consistent_find {a : Archive} (h : Consistent a) {f : Str} {e : ZEntry} (hf : a.find f = some e)
    (hd : f.getLast? ≠ some '/') : e.size = e.raw.length ∧ e.crc = crc32 e.raw 0 := by
  obtain ⟨pre, post, h1, h2, _⟩ := (find_spec a f e).1 hf
  refine h e (by rw [h1]; simp) ?_
  rw [isDirName_iff, h2]
  exact hd

/-- C55 for two archive files, unless both have an entry with the empty name. Missing: exploded
archives (`C55_mixed`, `C55_exploded`, `C55_binary`). -/
theorem C55_partial (order : List Str → List Str) (l r : Archive) (ho : IsSetOrder order)
    (hl : l.closed = false) (hr : r.closed = false) (hcl : Consistent l) (hcr : Consistent r)
    (hzl : l.exploded = false) (hzr : r.exploded = false) (hne : ¬ ([] ∈ names l ∧ [] ∈ names r)) :
    ∃ evs g, compareZips order l r = (evs, none) ∧ Partition l r evs ∧
      collectZips order l r = .ok g ∧ Grouped evs g := by
  have hln : l.namelist = .ok (names l) := by simp [Archive.namelist, hzl, names]
  have hrn : r.namelist = .ok (names r) := by simp [Archive.namelist, hzr, names]
  have hdiff : ∀ f ∈ names l, f ∈ names r → f.getLast? ≠ some '/' → ∃ b c, HasContent l f b ∧
      HasContent r f c ∧ different l r f = .ok (decide (b ≠ c)) := by
    intro f h1 h2 hd
    obtain ⟨a, ha⟩ := find_isSome l f h1
    obtain ⟨b, hb⟩ := find_isSome r f h2
    obtain ⟨s1, c1⟩ := consistent_find hcl ha hd
    obtain ⟨s2, c2⟩ := consistent_find hcr hb hd
    refine ⟨a.raw, b.raw, (hasContent_iff _ _ _).2 ⟨a, ha, rfl⟩, (hasContent_iff _ _ _).2 ⟨b, hb, rfl⟩, ?_⟩
    unfold different
    rw [ha, hb]
    simp only
    by_cases hsc : a.size = b.size ∧ a.crc = b.crc
    · rw [if_pos hsc]
      unfold deepDifferent Archive.openRead
      rw [ha, hb]
      simp only [hzl, hzr, hl, hr, s1, c1, s2, c2, ne_eq, not_true_eq_false, or_self, if_false,
        Bool.false_eq_true]
      rw [bytes_differ]
    · rw [if_neg hsc]
      have : a.raw ≠ b.raw := by
        intro he
        apply hsc
        rw [s1, s2, c1, c2, he]
        exact ⟨rfl, rfl⟩
      simp [this]
  have hD : ∀ f ∈ names l, f ∈ names r → f.getLast? ≠ some '/' →
      different l r f = .ok (match different l r f with | .ok b => b | .error _ => false) := by
    intro f h1 h2 h3
    obtain ⟨b, c, _, _, h⟩ := hdiff f h1 h2 h3
    rw [h]
  obtain ⟨evs, h1, h2, h3, h4, h5, h6⟩ := compareZips_spec ho hln hrn
    (D := fun f => match different l r f with | .ok b => b | .error _ => false)
    (fun f h1 h2 h3 => hne (by rw [h3] at h1 h2; exact ⟨h1, h2⟩)) hD
  obtain ⟨g, hg1, hg2⟩ := collect_grouped h1 h2
  refine ⟨evs, g, h1, ⟨h2, h3, h4, ?_, ?_⟩, hg1, hg2⟩
  · intro f
    rw [h5, isDirName_iff]
    constructor
    · rintro ⟨q1, q2, q3, q4⟩
      obtain ⟨b, c, hb, hc, h⟩ := hdiff f q1 q2 q3
      rw [h] at q4
      have : b = c := by simpa using q4
      subst this
      exact ⟨q3, b, hb, hc⟩
    · rintro ⟨q3, b, hb, hc⟩
      have q1 := hasContent_name hb
      have q2 := hasContent_name hc
      obtain ⟨b', c', hb', hc', h⟩ := hdiff f q1 q2 q3
      refine ⟨q1, q2, q3, ?_⟩
      rw [h]
      rw [hasContent_iff] at hb hb' hc hc'
      obtain ⟨e1, e2, rfl⟩ := hb
      obtain ⟨e3, e4, rfl⟩ := hb'
      obtain ⟨e5, e6, e6'⟩ := hc
      obtain ⟨e7, e8, rfl⟩ := hc'
      rw [e2] at e4
      rw [e6] at e8
      rw [← Option.some.inj e4, ← Option.some.inj e8, e6']
      simp
  · intro f
    rw [h6, isDirName_iff]
    constructor
    · rintro ⟨q1, q2, q3, q4⟩
      obtain ⟨b, c, hb, hc, h⟩ := hdiff f q1 q2 q3
      rw [h] at q4
      exact ⟨q3, b, c, hb, hc, by simpa using q4⟩
    · rintro ⟨q3, b, c, hb, hc, hbc⟩
      have q1 := hasContent_name hb
      have q2 := hasContent_name hc
      obtain ⟨b', c', hb', hc', h⟩ := hdiff f q1 q2 q3
      refine ⟨q1, q2, q3, ?_⟩
      rw [h]
      rw [hasContent_iff] at hb hb' hc hc'
      obtain ⟨e1, e2, rfl⟩ := hb
      obtain ⟨e3, e4, rfl⟩ := hb'
      obtain ⟨e5, e6, rfl⟩ := hc
      obtain ⟨e7, e8, rfl⟩ := hc'
      rw [e2] at e4
      rw [e6] at e8
      rw [← Option.some.inj e4, ← Option.some.inj e8]
      simpa using hbc

/-- C55, a finding: a file of an exploded archive is read as text, so it is never the same as the
entry of an archive file with the same content. -/
theorem C55_mixed (l r : Archive) (f : Str) (b : Bytes) (hl : l.closed = false)
    (hr : r.closed = false) (hcl : Consistent l) (hcr : Consistent r) (hd : ¬ IsDirName f)
    (hxl : l.exploded = true) (hxr : r.exploded = false) (hbl : HasContent l f b)
    (hbr : HasContent r f b) (hb : b ≠ []) (hdec : decodeStrict b ≠ none) :
    different l r f = .ok true ∧ different r l f = .ok true := by
  obtain ⟨x, hx, hxb⟩ := (hasContent_iff _ _ _).1 hbl
  obtain ⟨y, hy, hyb⟩ := (hasContent_iff _ _ _).1 hbr
  rw [isDirName_iff] at hd
  obtain ⟨s1, c1⟩ := consistent_find hcl hx hd
  obtain ⟨s2, c2⟩ := consistent_find hcr hy hd
  obtain ⟨t, ht⟩ := Option.ne_none_iff_exists'.1 hdec
  have hm := mixed_differ (universalNewlines t) b (.inr hb)
  have h1 : l.openRead f = .ok (.text (universalNewlines t)) := by
    unfold Archive.openRead
    rw [hx]
    simp only [hxl, if_true, hxb, ht]
  have h2 : r.openRead f = .ok (.bytes b) := by
    unfold Archive.openRead
    rw [hy]
    simp only [hxr, hr, s2, c2, hyb, ne_eq, not_true_eq_false, or_self, if_false,
      Bool.false_eq_true]
  unfold different deepDifferent
  rw [hx, hy, h1, h2]
  simp only [s1, s2, c1, c2, hxb, hyb, and_self, if_true, hm.1, hm.2]

/-- C55, a finding: comparing the same binary file in two exploded archives raises an error. -/
theorem C55_binary (l r : Archive) (f : Str) (b : Bytes) (hcl : Consistent l) (hcr : Consistent r)
    (hd : ¬ IsDirName f) (hxl : l.exploded = true) (hbl : HasContent l f b)
    (hbr : HasContent r f b) (hdec : decodeStrict b = none) :
    different l r f = .error .unicodeDecodeError := by
  obtain ⟨x, hx, hxb⟩ := (hasContent_iff _ _ _).1 hbl
  obtain ⟨y, hy, hyb⟩ := (hasContent_iff _ _ _).1 hbr
  rw [isDirName_iff] at hd
  obtain ⟨s1, c1⟩ := consistent_find hcl hx hd
  obtain ⟨s2, c2⟩ := consistent_find hcr hy hd
  have h1 : l.openRead f = .error .unicodeDecodeError := by
    unfold Archive.openRead
    rw [hx]
    simp only [hxl, if_true, hxb, hdec]
  unfold different deepDifferent
  rw [hx, hy, h1]
  simp only [s1, s2, c1, c2, hxb, hyb, and_self, if_true]

/-- C55 for two text files of exploded archives: files with different sizes, CRCs or text are
different, others are the same. (Files that differ only in their line ends, with the same size and
CRC, count as the same.) -/
theorem C55_exploded (l r : Archive) (f : Str) (b c : Bytes) (s t : Str) (hcl : Consistent l)
    (hcr : Consistent r) (hd : ¬ IsDirName f) (hxl : l.exploded = true) (hxr : r.exploded = true)
    (hbl : HasContent l f b) (hbr : HasContent r f c) (hs : decodeStrict b = some s)
    (ht : decodeStrict c = some t) :
    different l r f = .ok (decide (¬ (b.length = c.length ∧ crc32 b 0 = crc32 c 0 ∧
      universalNewlines s = universalNewlines t))) := by
  obtain ⟨x, hx, hxb⟩ := (hasContent_iff _ _ _).1 hbl
  obtain ⟨y, hy, hyb⟩ := (hasContent_iff _ _ _).1 hbr
  rw [isDirName_iff] at hd
  obtain ⟨s1, c1⟩ := consistent_find hcl hx hd
  obtain ⟨s2, c2⟩ := consistent_find hcr hy hd
  have h1 : l.openRead f = .ok (.text (universalNewlines s)) := by
    unfold Archive.openRead
    rw [hx]
    simp only [hxl, if_true, hxb, hs]
  have h2 : r.openRead f = .ok (.text (universalNewlines t)) := by
    unfold Archive.openRead
    rw [hy]
    simp only [hxr, if_true, hyb, ht]
  unfold different deepDifferent
  rw [hx, hy, h1, h2]
  simp only [s1, s2, c1, c2, hxb, hyb]
  by_cases hsc : b.length = c.length ∧ crc32 b 0 = crc32 c 0
  · rw [if_pos hsc, text_differ]
    simp only [hsc.1, hsc.2, true_and, ne_eq]
  · rw [if_neg hsc]
    congr 1
    symm
    rw [decide_eq_true_eq]
    exact fun h => hsc ⟨h.1, h.2.1⟩

/-- An archive of entries with correct sizes and check sums. -/
def zipOf (exploded : Bool) (fs : List (Str × Bytes)) : Archive :=
  { exploded := exploded
    entries := fs.map fun p =>
      { name := p.1, size := p.2.length, csize := p.2.length, crc := crc32 p.2 0, raw := p.2 } }

theorem zipOf_consistent (x : Bool) (fs : List (Str × Bytes)) : Consistent (zipOf x fs) := by
  intro e he _
  obtain ⟨p, _, rfl⟩ := List.mem_map.1 he
  exact ⟨rfl, rfl⟩

/-- One order of iteration. -/
def dedup : List Str → List Str
  | [] => []
  | x :: xs => if x ∈ dedup xs then dedup xs else x :: dedup xs

theorem dedup_isSetOrder : IsSetOrder dedup := by
  intro l
  induction l with
  | nil => exact ⟨List.nodup_nil, fun _ => Iff.rfl⟩
  | cons x xs ih =>
    obtain ⟨h1, h2⟩ := ih
    simp only [dedup]
    split
    · rename_i h
      refine ⟨h1, fun y => ?_⟩
      rw [h2, List.mem_cons]
      exact ⟨.inr, fun hy => hy.elim (fun e => by rw [e, ← h2]; exact h) id⟩
    · rename_i h
      exact ⟨List.nodup_cons.2 ⟨h, h1⟩, fun y => by rw [List.mem_cons, List.mem_cons, h2]⟩

/-- C55 is false: the same text in an exploded and in a real archive. -/
theorem C55_full_fails : ¬ C55_full := by
  intro h
  obtain ⟨evs, g, h1, h2, _, _⟩ := h dedup (zipOf true [("a".toList, [65])])
    (zipOf false [("a".toList, [65])]) dedup_isSetOrder rfl rfl (zipOf_consistent _ _)
    (zipOf_consistent _ _)
  have h3 : compareZips dedup (zipOf true [("a".toList, [65])]) (zipOf false [("a".toList, [65])]) =
      ([(.diff, "a".toList)], none) := by decide +kernel
  rw [h3] at h1
  obtain rfl := (Prod.mk.inj h1).1
  obtain ⟨_, b, c, hb, hc, hbc⟩ := (h2.diff "a".toList).1 (by simp)
  rw [hasContent_iff] at hb hc
  obtain ⟨e1, e2, rfl⟩ := hb
  obtain ⟨e3, e4, rfl⟩ := hc
  rw [← Option.some.inj e2, ← Option.some.inj e4] at hbc
  exact hbc rfl

/-- An empty name in both archives is a further failure. -/
example : compareZips dedup (zipOf false [([], [65])]) (zipOf false [([], [65])]) =
    ([], some .indexError) := by decide +kernel

example : let l := zipOf false [("a".toList, [1]), ("b".toList, [2]), ("d/".toList, []), ("x".toList, [7])]
    let r := zipOf false [("c".toList, [1]), ("b".toList, [3]), ("d/".toList, []), ("x".toList, [7])]
    collectZips dedup l r = .ok (["c".toList], ["a".toList], ["b".toList], ["x".toList]) ∧
      ¬ ([] ∈ names l ∧ [] ∈ names r) := by decide +kernel

/-! ### C56 -/

/-- C56 as stated. -/
def C56_full : Prop :=
  ∀ (order : List Str → List Str) (open_ : Str → Res Archive) (left right : Str) (l r : Archive),
    IsSetOrder order → open_ left = .ok l → open_ right = .ok r → l.closed = false →
    r.closed = false →
    compareNamed order open_ left right = .ok (compareZips order l r)

/-- A common file entry with the same size and CRC: its content has to be read. -/
def Alike (l r : Archive) (f : Str) : Prop :=
  f.getLast? ≠ some '/' ∧ ∃ a b, l.find f = some a ∧ r.find f = some b ∧ a.size = b.size ∧
    a.crc = b.crc

theorem different_closed {l r : Archive} {f : Str} (h : ¬ Alike l r f) (hd : f.getLast? ≠ some '/')
    (x y : Bool) : different { l with closed := x } { r with closed := y } f = different l r f := by
  have hfl : ({ l with closed := x } : Archive).find f = l.find f := rfl
  have hfr : ({ r with closed := y } : Archive).find f = r.find f := rfl
  unfold different
  rw [hfl, hfr]
  cases ha : l.find f with
  | none => rfl
  | some a =>
    cases hb : r.find f with
    | none => rfl
    | some b =>
      simp only
      have : ¬ (a.size = b.size ∧ a.crc = b.crc) := fun hc => h ⟨hd, a, b, ha, hb, hc⟩
      rw [if_neg this, if_neg this]

theorem compareLeft_closed {l r : Archive} {rl fs : List Str} (x y : Bool)
    (h : ∀ f ∈ fs, f ∈ rl → ¬ Alike l r f) :
    compareLeft { l with closed := x } { r with closed := y } rl fs = compareLeft l r rl fs := by
  induction fs with
  | nil => rfl
  | cons f fs ih =>
    simp only [compareLeft, ih fun g hg => h g (by simp [hg])]
    by_cases hf : f ∈ rl
    · simp only [if_pos hf]
      by_cases hd : f.getLast? = some '/'
      · simp only [hd]
      · rw [different_closed (h f (by simp) hf) hd]
    · simp only [if_neg hf]

/-- C56 for archive files in which no common entry agrees in size and CRC. Missing: all others. -/
theorem C56_partial (order : List Str → List Str) (open_ : Str → Res Archive) (left right : Str)
    (l r : Archive) (ho : IsSetOrder order) (hl : open_ left = .ok l) (hr : open_ right = .ok r)
    (hzl : l.exploded = false) (hzr : r.exploded = false)
    (hna : ∀ f ∈ names l, f ∈ names r → ¬ Alike l r f) :
    compareNamed order open_ left right = .ok (compareZips order l r) := by
  unfold compareNamed
  rw [hl, hr]
  simp only
  unfold compareZips
  have h1 : ∀ (a : Archive), a.exploded = false → ∀ x, ({ a with closed := x } : Archive).namelist =
      .ok (names a) := by
    intro a ha x
    simp [Archive.namelist, ha, names]
  have h2 : ∀ (a : Archive), a.exploded = false → a.namelist = .ok (names a) := by
    intro a ha
    simp [Archive.namelist, ha, names]
  rw [h1 l hzl, h2 l hzl]
  simp only
  rw [h1 r hzr, h2 r hzr]
  simp only
  rw [compareLeft_closed true true fun f hf => hna f (((ho _).2 f).1 hf)]

theorem compareLeft_alike {l r : Archive} {rl fs : List Str} (hzl : l.exploded = false)
    (hne : ∀ f ∈ fs, f ∈ rl → f ≠ []) (hsub : ∀ f ∈ fs, f ∈ names l) (hsub' : ∀ f ∈ rl, f ∈ names r)
    (h : ∃ f ∈ fs, f ∈ rl ∧ Alike l r f) :
    (compareLeft { l with closed := true } { r with closed := true } rl fs).2 = some .valueError := by
  have hfl : ∀ f, ({ l with closed := true } : Archive).find f = l.find f := fun _ => rfl
  have hfr : ∀ f, ({ r with closed := true } : Archive).find f = r.find f := fun _ => rfl
  induction fs with
  | nil => simp at h
  | cons g gs ih =>
    simp only [compareLeft]
    by_cases ha : g ∈ rl ∧ Alike l r g
    · obtain ⟨hg, hd, a, b, h1, h2, h3⟩ := ha
      obtain ⟨c, hc⟩ := getLast?_some_of_ne (hne g (by simp) hg)
      have hdiff : different { l with closed := true } { r with closed := true } g =
          .error .valueError := by
        have hopen : ({ l with closed := true } : Archive).openRead g = .error .valueError := by
          unfold Archive.openRead
          rw [hfl, h1]
          show (if l.exploded then _ else _) = _
          rw [hzl]
          rfl
        unfold different deepDifferent
        rw [hfl, hfr, h1, h2, hopen]
        exact if_pos h3
      rw [if_pos hg, hc]
      split
      · rename_i heq; simp at heq
      · rename_i heq; rw [hc, heq] at hd; exact absurd rfl hd
      · rw [hdiff]
    · have ih := ih (fun x hx => hne x (by simp [hx])) (fun x hx => hsub x (by simp [hx])) (by
        obtain ⟨f, hf, h1⟩ := h
        rcases List.mem_cons.1 hf with rfl | hf
        · exact absurd h1 ha
        · exact ⟨f, hf, h1⟩)
      by_cases hg : g ∈ rl
      · rw [if_pos hg]
        have hna : ¬ Alike l r g := fun h => ha ⟨hg, h⟩
        obtain ⟨c, hc⟩ := getLast?_some_of_ne (hne g (by simp) hg)
        rw [hc]
        split
        · rename_i heq; simp at heq
        · exact ih
        · rename_i c' hcs heq
          have hd : g.getLast? ≠ some '/' := by
            rw [hc]
            intro he
            exact hcs (Option.some.inj (heq.symm.trans he))
          obtain ⟨a, ha'⟩ := find_isSome l g (hsub g (by simp))
          obtain ⟨b, hb'⟩ := find_isSome r g (hsub' g hg)
          have hdiff : different { l with closed := true } { r with closed := true } g = .ok true := by
            unfold different
            simp only [hfl, hfr, ha', hb']
            rw [if_neg fun hc => hna ⟨hd, a, b, ha', hb', hc⟩]
          rw [hdiff]
          exact ih
      · rw [if_neg hg]
        exact ih

/-- C56, the other archive files: as soon as a common entry agrees in size and CRC, the comparison
ends with a `ValueError`, for the archive is closed. -/
theorem C56_raises (order : List Str → List Str) (open_ : Str → Res Archive) (left right : Str)
    (l r : Archive) (ho : IsSetOrder order) (hl : open_ left = .ok l) (hr : open_ right = .ok r)
    (hzl : l.exploded = false) (hzr : r.exploded = false)
    (hne : ¬ ([] ∈ names l ∧ [] ∈ names r))
    (ha : ∃ f ∈ names l, f ∈ names r ∧ Alike l r f) :
    ∃ evs, compareNamed order open_ left right = .ok (evs, some .valueError) := by
  unfold compareNamed
  rw [hl, hr]
  simp only
  unfold compareZips
  have h1 : ∀ (a : Archive), a.exploded = false → ∀ x, ({ a with closed := x } : Archive).namelist =
      .ok (names a) := by
    intro a ha x
    simp [Archive.namelist, ha, names]
  rw [h1 l hzl]
  simp only
  rw [h1 r hzr]
  simp only
  have := compareLeft_alike (r := r) (rl := names r) (fs := order (names l)) hzl
    (fun f hf hg he => hne (by subst he; exact ⟨((ho _).2 _).1 hf, hg⟩))
    (fun f hf => ((ho _).2 f).1 hf) (fun f hf => hf)
    (by obtain ⟨f, h1, h2⟩ := ha; exact ⟨f, ((ho _).2 f).2 h1, h2⟩)
  generalize compareLeft _ _ _ _ = res at this
  obtain ⟨evs, e⟩ := res
  simp only at this
  subst this
  exact ⟨evs, rfl⟩

/-- C56, exploded archives: the comparison ends with an `AttributeError` before it begins. -/
theorem C56_exploded (order : List Str → List Str) (open_ : Str → Res Archive) (left right : Str)
    (l r : Archive) (hl : open_ left = .ok l) (hr : open_ right = .ok r)
    (hx : l.exploded = true ∨ r.exploded = true) :
    compareNamed order open_ left right = .ok ([], some .attributeError) := by
  unfold compareNamed compareZips Archive.namelist
  rw [hl, hr]
  cases hle : l.exploded <;> cases hre : r.exploded <;> simp [hle, hre] at hx ⊢

/-- C56 is false: two archives with the same entry. -/
theorem C56_full_fails : ¬ C56_full := by
  intro h
  have := h dedup (fun _ => .ok (zipOf false [("a".toList, [65])])) [] [] _ _ dedup_isSetOrder rfl rfl
    rfl rfl
  revert this
  decide +kernel

example : let l := zipOf false [("a".toList, [1]), ("b".toList, [2])]
    let r := zipOf false [("b".toList, [3]), ("c".toList, [2])]
    let open_ := fun p : Str => if p = "l".toList then .ok l else .ok r
    compareNamed dedup open_ "l".toList "r".toList =
      .ok ([(.left, "a".toList), (.diff, "b".toList), (.right, "c".toList)], none) := by
  decide +kernel

/-! ### C58 -/

def fileEntries (a : Archive) : List ZEntry := a.entries.filter fun e => e.name.getLast? ≠ some '/'

/-- C58 as stated. -/
def C58_full : Prop :=
  ∀ a : Archive, ∃ files dirs tc tu, rollup a.entries = .ok (files, dirs, tc, tu) ∧
    files + dirs = a.entries.length ∧ files = (fileEntries a).length ∧
    tc = ((fileEntries a).map ZEntry.csize).sum ∧ tu = ((fileEntries a).map ZEntry.size).sum

/-- C58 unless an entry has the empty name. -/
theorem C58_partial (a : Archive) (hne : [] ∉ names a) :
    ∃ files dirs tc tu, rollup a.entries = .ok (files, dirs, tc, tu) ∧
      files + dirs = a.entries.length ∧ files = (fileEntries a).length ∧
      tc = ((fileEntries a).map ZEntry.csize).sum ∧ tu = ((fileEntries a).map ZEntry.size).sum := by
  unfold fileEntries
  unfold names at hne
  generalize a.entries = es at hne ⊢
  induction es with
  | nil => exact ⟨0, 0, 0, 0, rfl, rfl, rfl, rfl, rfl⟩
  | cons e es ih =>
    simp only [List.map_cons, List.mem_cons, not_or] at hne
    obtain ⟨files, dirs, tc, tu, h1, h2, h3, h4, h5⟩ := ih hne.2
    obtain ⟨c, hc⟩ := getLast?_some_of_ne fun h => hne.1 h.symm
    simp only [rollup, hc, h1]
    by_cases hs : c = '/'
    · subst hs
      refine ⟨files, dirs + 1, tc, tu, by simp, by simp; omega, ?_⟩
      rw [List.filter_cons_of_neg (by simp [hc])]
      exact ⟨h3, h4, h5⟩
    · refine ⟨files + 1, dirs, tc + e.csize, tu + e.size, by simp [hs], by simp; omega, ?_⟩
      rw [List.filter_cons_of_pos (by simp [hc, hs])]
      simp only [List.length_cons, List.map_cons, List.sum_cons]
      omega

/-- An entry with the empty name ends `zip_entry_rollup` with an `IndexError`. -/
theorem C58_empty_name (a : Archive) (hne : [] ∈ names a) : rollup a.entries = .error .indexError := by
  unfold names at hne
  generalize a.entries = es at hne ⊢
  induction es with
  | nil => simp at hne
  | cons e es ih =>
    simp only [rollup]
    split
    · rfl
    · rename_i c hc
      rcases List.mem_cons.1 hne with h | h
      · rw [← h] at hc
        simp at hc
      · rw [ih h]

theorem C58_full_fails : ¬ C58_full := by
  intro h
  obtain ⟨_, _, _, _, h1, _⟩ := h (zipOf false [([], [])])
  rw [C58_empty_name _ (by simp [names, zipOf])] at h1
  cases h1

theorem fileCrc32_default (b : Bytes) : fileCrc32 b = crc32 b 0 := C57_crc b _ (by simp)

theorem explodedEntries_sizes (tree : List (Str × Option Bytes))
    (hs : ∀ p ∈ tree, p.1.getLast? ≠ some '/') :
    (fileEntries (explodedArchive tree)).map ZEntry.size =
        tree.filterMap (fun p => p.2.map List.length) ∧
      (fileEntries (explodedArchive tree)).map ZEntry.csize =
        tree.filterMap (fun p => p.2.map List.length) := by
  unfold fileEntries explodedArchive
  induction tree with
  | nil => exact ⟨rfl, rfl⟩
  | cons p tree ih =>
    obtain ⟨i1, i2⟩ := ih fun q hq => hs q (by simp [hq])
    obtain ⟨n, o⟩ := p
    cases o with
    | none =>
      simp only [List.map_cons, explodedEntry, List.filterMap_cons, Option.map_none]
      rw [List.filter_cons_of_neg (by simp)]
      exact ⟨i1, i2⟩
    | some b =>
      have := hs (n, some b) (by simp)
      simp only at this
      simp only [List.map_cons, explodedEntry, List.filterMap_cons, Option.map_some]
      rw [List.filter_cons_of_pos (by simpa using this)]
      simp only [List.map_cons]
      exact ⟨congrArg _ i1, congrArg _ i2⟩

/-- C58, exploded archives: the numbers of files and directories of a directory tree and the sum of
the file lengths. File names are not empty and contain no slash. -/
theorem C58_exploded (tree : List (Str × Option Bytes))
    (hs : ∀ p ∈ tree, p.1 ≠ [] ∧ p.1.getLast? ≠ some '/') :
    rollup (explodedArchive tree).entries =
      .ok ((tree.filter fun p => p.2.isSome).length, (tree.filter fun p => p.2.isNone).length,
        (tree.filterMap fun p => p.2.map List.length).sum,
        (tree.filterMap fun p => p.2.map List.length).sum) := by
  have hne : [] ∉ names (explodedArchive tree) := by
    intro h
    simp only [names, explodedArchive, List.map_map, List.mem_map] at h
    obtain ⟨⟨n, o⟩, hp, h⟩ := h
    cases o with
    | none => simp [explodedEntry] at h
    | some b =>
      exact (hs _ hp).1 (by simpa [explodedEntry] using h)
  obtain ⟨files, dirs, tc, tu, h1, h2, h3, h4, h5⟩ := C58_partial _ hne
  obtain ⟨e1, e2⟩ := explodedEntries_sizes tree fun p hp => (hs p hp).2
  rw [e2] at h4
  rw [e1] at h5
  rw [h1, h4, h5]
  have hlen : files = (tree.filter fun p => p.2.isSome).length := by
    rw [h3, ← List.length_map (f := ZEntry.size), e1]
    clear h1 h2 h3 h4 h5 e1 e2 hne hs
    induction tree with
    | nil => rfl
    | cons p tree ih =>
      obtain ⟨n, o⟩ := p
      cases o <;> simp [ih]
  have htot : (tree.filter fun p => p.2.isSome).length + (tree.filter fun p => p.2.isNone).length =
      tree.length := by
    clear h1 h2 h3 h4 h5 e1 e2 hne hs hlen
    induction tree with
    | nil => rfl
    | cons p tree ih =>
      obtain ⟨n, o⟩ := p
      cases o <;> simp <;> omega
  have hl : (explodedArchive tree).entries.length = tree.length := by simp [explodedArchive]
  have : dirs = (tree.filter fun p => p.2.isNone).length := by omega
  rw [← hlen, ← this]

/-- The entries of an exploded archive have the right sizes and check sums. -/
theorem exploded_consistent (tree : List (Str × Option Bytes)) :
    Consistent (explodedArchive tree) := by
  intro e he hd
  obtain ⟨⟨n, o⟩, _, rfl⟩ := List.mem_map.1 he
  cases o with
  | none => exact absurd ⟨n, rfl⟩ hd
  | some b => exact ⟨rfl, fileCrc32_default b⟩

/-- C58, `cli_jar_zip_info`: it fails on archives without any data, for it divides by the
uncompressed size, and prints those numbers otherwise. -/
theorem C58_zip_info (es : List ZEntry) (files dirs tc tu : Nat)
    (h : rollup es = .ok (files, dirs, tc, tu)) :
    zipInfo es = if tu = 0 then .error (.other "ZeroDivisionError") else .ok (files, dirs, tu, tc) := by
  unfold zipInfo
  rw [h]

example : rollup (explodedArchive [("d".toList, none), ("d/f".toList, some [1, 2]),
    ("g".toList, some [3])]).entries = .ok (2, 1, 3, 3) := by decide +kernel

example : rollup [{ name := "a".toList, size := 10, csize := 4, crc := 0, raw := [] }] =
    .ok (1, 0, 4, 10) := by decide

end Javatools
