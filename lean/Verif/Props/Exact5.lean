import Verif.Props.ZipAccess
import Verif.Proofs.Paths
import Verif.Props.ZipStream

/-! For exactly which inputs further claims hold. -/

namespace Javatools

open FsTree

/-- A path that ends with a slash is never a file. -/
theorem openParts_slash (st : List FsTree) (ps : List Str) (b : Bytes) : openParts st (ps ++ [[]]) ≠ .ok b := by
  induction ps generalizing st with
  | nil => simp [openParts]
  | cons n ps ih =>
    rw [List.cons_append, openParts]
    split
    · exact ih _
    split
    · exact ih _
    split
    · simp
    split
    · simp
    · simp
    · simp
    · rw [if_neg (by simp)]; simp
    · exact ih _

theorem read_slash (x : Exploded) (s : Str) (b : Bytes) : x.read (s ++ ['/']) ≠ .ok b := by
  have h : splitAll '/' (s ++ ['/']) = splitAll '/' s ++ [[]] := splitAll_slash s []
  rw [Exploded.read, h]
  split
  · exact openParts_slash _ _ b
  · exact openParts_slash _ _ b

/-- C126, exactly: what is read under a text is a member of that name if and only if the text is the plain path of a
file of the directory that is reached without links, and what is read is its content. -/
theorem C126_exact (t : FsTree) (above : List FsTree) (ht : t.Ok) (x : Str) (b : Bytes)
    (h : (Exploded.new t above).read x = .ok b) :
    (∃ l, (Exploded.new t above).namelist = .ok l ∧ x ∈ l) ↔ ∃ p, t.FileIn p b ∧ x = slashed p := by
  obtain ⟨l, hl, -, -, hm⟩ := C125_names t above ht
  constructor
  · rintro ⟨l', hl', hx⟩
    rw [hl, Except.ok.injEq] at hl'
    subst hl'
    rcases (hm x).1 hx with ⟨p, b', hp, rfl⟩ | ⟨p, -, rfl⟩
    · have := C125_read t above ht p b' hp
      rw [h, Except.ok.injEq] at this
      subst this
      exact ⟨p, hp, rfl⟩
    · exact absurd h (read_slash _ _ b)
  · rintro ⟨p, hp, rfl⟩
    exact ⟨l, hl, (hm _).2 (.inl ⟨p, b, hp, rfl⟩)⟩

/-- C126, for exactly which directories all that is read under plain paths is a member: those below which no file is
reached through a link. -/
theorem C126_plain_exact (t : FsTree) (above : List FsTree) (ht : t.Ok) :
    (∀ p b, p ≠ [] → (∀ n ∈ p, IsName n) → (Exploded.new t above).read (slashed p) = .ok b →
      ∃ l, (Exploded.new t above).namelist = .ok l ∧ slashed p ∈ l) ↔
    ∀ p b, (∀ n ∈ p, IsName n) → t.Reaches p b → t.FileIn p b := by
  constructor
  · intro h p b hn hr
    have hp : p ≠ [] := by obtain ⟨n, q, rfl, -⟩ := hr.path; simp
    have hread := (C126_links t above ht p hp hn b).2 hr
    obtain ⟨q, hq, e⟩ := (C126_exact t above ht _ b hread).1 (h p b hp hn hread)
    have hq' : q ≠ [] := by obtain ⟨n, q, rfl, -⟩ := hq.path; simp
    rw [slashed_inj hp hq' hn (hq.isNames ht) e]
    exact hq
  · intro h p b hp hn hread
    exact (C126_exact t above ht _ b hread).2 ⟨p, h p b hn ((C126_links t above ht p hp hn b).1 hread), rfl⟩

/-- The file of the sample tree is a member under its path, and what the link gives is not. -/
example : (∃ l, (Exploded.new sampleTree []).namelist = .ok l ∧ "d/e".toList ∈ l) ∧
    ¬ ∃ l, (Exploded.new sampleTree []).namelist = .ok l ∧ "l".toList ∈ l := by
  have hok : sampleTree.Ok := by simp [sampleTree, FsTree.Ok, FsTree.names, IsName]
  constructor
  · exact (C126_exact sampleTree [] hok _ [] (by decide +kernel)).2
      ⟨["d".toList, "e".toList], by simp [sampleTree, FsTree.FileIn], by decide⟩
  · rintro ⟨l, h1, h2⟩
    have h3 : (Exploded.new sampleTree []).namelist = .ok ["a.txt".toList, "d/".toList, "d/e".toList] := by
      decide +kernel
    rw [h3, Except.ok.injEq] at h1
    subst h1
    exact absurd h2 (by decide +kernel)

/-! ### C127 -/

/-- The locator at `i` names the first part of one that is in at most one. -/
def OnePart (b : Bytes) (i : Nat) : Prop :=
  numberAt b (i + 4) = some 0 ∧ (numberAt b (i + 16) = some 0 ∨ numberAt b (i + 16) = some 1)

/-- What is found in front of a record, in all cases. -/
theorem endRec64_exact (clamps : Bool) (b : Bytes) (k : Nat) (hk : k + 22 ≤ b.length)
    (h : locatorSig <+: b.drop (k - 20)) (h20 : 20 ≤ k ∨ clamps = true) :
    (¬ OnePart b (k - 20) → endRec64 clamps b ((k : Int) - b.length) = .error (.other "BadZipFile")) ∧
    (OnePart b (k - 20) → (76 ≤ k ∨ clamps = true) → endRec64 clamps b ((k : Int) - b.length) = .ok true) ∧
    (OnePart b (k - 20) → ¬ (76 ≤ k ∨ clamps = true) →
      endRec64 clamps b ((k : Int) - b.length) = .error (.other "OSError")) := by
  have hs : seekEnd clamps b ((k : Int) - b.length - 20) = some (k - 20) := by
    unfold seekEnd
    split
    · congr 1; omega
    · rw [if_pos (h20.resolve_left (by omega))]
      congr 1; omega
  have hs2 : (seekEnd clamps b ((k : Int) - b.length - 76)).isSome = true ↔ (76 ≤ k ∨ clamps = true) := by
    unfold seekEnd
    split
    · simp; omega
    · have : ¬ 76 ≤ k := by omega
      cases clamps <;> simp [this]
  have e1 : (((b.drop (k - 20)).take 20).drop 4).take 4 = (b.drop (k - 20 + 4)).take 4 := by
    rw [List.drop_take, List.take_take, List.drop_drop]
    rfl
  have e2 : ((b.drop (k - 20)).take 20).drop 16 = (b.drop (k - 20 + 16)).take 4 := by
    rw [List.drop_take, List.drop_drop]
  have n1 : numberAt b (k - 20 + 4) = some 0 ↔ (b.drop (k - 20 + 4)).take 4 = [0, 0, 0, 0] :=
    numberAt_small (n := 0) (by decide)
  have n2 : numberAt b (k - 20 + 16) = some 0 ↔ (b.drop (k - 20 + 16)).take 4 = [0, 0, 0, 0] :=
    numberAt_small (n := 0) (by decide)
  have n3 : numberAt b (k - 20 + 16) = some 1 ↔ (b.drop (k - 20 + 16)).take 4 = [1, 0, 0, 0] :=
    numberAt_small (n := 1) (by decide)
  have hlen : ¬ ((b.drop (k - 20)).take 20).length ≠ 20 := by simp; omega
  have hloc : ¬ ((b.drop (k - 20)).take 20).take 4 ≠ locatorSig := by
    obtain ⟨r, hr⟩ := h
    rw [← hr]
    simp [locatorSig]
  unfold OnePart
  rw [n1, n2, n3]
  unfold endRec64
  rw [hs]
  simp only
  rw [if_neg hlen, if_neg hloc, e1, e2]
  refine ⟨fun hn => ?_, fun hp h76 => ?_, fun hp h76 => ?_⟩
  · rw [if_pos]
    by_cases p : (b.drop (k - 20 + 4)).take 4 = [0, 0, 0, 0]
    · exact .inr fun q => hn ⟨p, q⟩
    · exact .inl p
  · rw [if_neg fun h => h.elim (fun h => h hp.1) fun h => h hp.2]
    obtain ⟨x, hx⟩ := Option.isSome_iff_exists.1 (hs2.2 h76)
    rw [hx]
  · rw [if_neg fun h => h.elim (fun h => h hp.1) fun h => h hp.2]
    cases hx : seekEnd clamps b ((k : Int) - b.length - 76) with
    | none => rfl
    | some x => rw [hx] at hs2; exact absurd (hs2.1 rfl) h76

/-- In front of the record at `k` there is nothing that looks like a locator; or there is no room for one and the
stream cannot be read from there; or the locator is that of an archive in one part and there is room for the record
that it locates, or the stream goes to the beginning instead. -/
def Locates (clamps : Bool) (b : Bytes) (k : Nat) : Prop :=
  locatorSig <+: b.drop (k - 20) →
    (k < 20 ∧ clamps = false) ∨ (OnePart b (k - 20) ∧ (76 ≤ k ∨ clamps = true))

/-- When an archive is recognised in the argument. -/
def Recognisable : StreamArg → Nat → Prop
  | .stream s, k => s.Usable ∧ Locates s.clamps s.content k
  | .view b, k => Locates true b k
  | _, _ => False

theorem stream_exact (s : ByteStream) (hs : s.Usable) (k : Nat) (hk : LastSig s.content k)
    (hr : k + 22 ≤ s.content.length) (hc : s.content.length ≤ k + 65536 + 22) :
    isZipstream (.stream s) = .ok (true, s.pos) ↔ Locates s.clamps s.content k := by
  have h1 := endRecData_at s.clamps s.content k hk hr hc
  by_cases hl : locatorSig <+: s.content.drop (k - 20)
  · by_cases h20 : 20 ≤ k ∨ s.clamps = true
    · obtain ⟨a1, a2, a3⟩ := endRec64_exact s.clamps s.content k hr hl h20
      have hno : ¬ (k < 20 ∧ s.clamps = false) := by
        rintro ⟨x, y⟩
        rcases h20 with h | h
        · omega
        · rw [y] at h; cases h
      by_cases hp : OnePart s.content (k - 20)
      · by_cases h76 : 76 ≤ k ∨ s.clamps = true
        · rw [a2 hp h76] at h1
          exact ⟨fun _ _ => .inr ⟨hp, h76⟩, fun _ => streamTest_usable hs h1⟩
        · rw [a3 hp h76] at h1
          obtain ⟨h2, h3, h4⟩ := hs
          refine ⟨fun h => ?_, fun h => absurd (h hl) (fun h => h.elim hno fun h => h76 h.2)⟩
          simp [isZipstream, streamTest, h1, h2, h3, h4] at h
      · rw [a1 hp] at h1
        obtain ⟨h2, h3, h4⟩ := hs
        refine ⟨fun h => ?_, fun h => absurd (h hl) (fun h => h.elim hno fun h => hp h.1)⟩
        simp [isZipstream, streamTest, h1, h2, h3, h4] at h
    · have hk20 : k < 20 := by omega
      have hcl : s.clamps = false := by
        cases hx : s.clamps
        · rfl
        · exact absurd (.inr hx) h20
      have : endRec64 s.clamps s.content ((k : Int) - s.content.length) = .ok true := by
        unfold endRec64 seekEnd
        rw [if_neg (by omega), hcl]
        rfl
      rw [this] at h1
      exact ⟨fun _ _ => .inl ⟨hk20, hcl⟩, fun _ => streamTest_usable hs h1⟩
  · exact ⟨fun _ h => absurd h hl, fun _ => C127_archive_partial s hs k hk hr hc hl⟩

/-- C127, exactly: in which arguments the record of an archive is recognised. -/
theorem C127_exact (a : StreamArg) (b : Bytes) (p : Nat) (h : Holds a b p) (k : Nat) (hk : LastSig b k)
    (hr : k + 22 ≤ b.length) (hc : b.length ≤ k + 65536 + 22) :
    isZipstream a = .ok (true, p) ↔ Recognisable a k := by
  cases a with
  | stream s =>
    obtain ⟨rfl, rfl⟩ := h
    by_cases hs : s.Usable
    · exact (stream_exact s hs k hk hr hc).trans ⟨fun h => ⟨hs, h⟩, fun h => h.2⟩
    · refine ⟨fun h => ?_, fun h => absurd h.1 hs⟩
      rcases C127_unusable s hs with e | e <;> rw [e] at h <;> cases h
  | view c =>
    obtain ⟨rfl, rfl⟩ := h
    rw [C127_view]
    exact stream_exact { content := c, pos := 0, clamps := true } ⟨rfl, rfl, rfl⟩ k hk hr hc
  | bytes c =>
    rw [C127_bytes.1 c]
    exact ⟨fun h => (by cases h), False.elim⟩
  | str => exact h.elim
  | other => exact h.elim

/-- C127, exactly: for which arguments data without the signature is said to be no archive. -/
theorem C127_other_exact (a : StreamArg) (b : Bytes) (p : Nat) (h : Holds a b p)
    (hb : ∀ k, ¬ endSig <+: b.drop k) :
    isZipstream a = .ok (false, p) ↔
      match a with
      | .stream s => s.Usable
      | .view _ => True
      | _ => False := by
  cases a with
  | stream s =>
    obtain ⟨rfl, rfl⟩ := h
    by_cases hs : s.Usable
    · exact ⟨fun _ => hs, fun _ => C127_other_partial s hs hb⟩
    · refine ⟨fun h => ?_, fun h => absurd h hs⟩
      rcases C127_unusable s hs with e | e <;> rw [e] at h <;> cases h
  | view c =>
    obtain ⟨rfl, rfl⟩ := h
    rw [C127_view]
    exact ⟨fun _ => trivial, fun _ =>
      C127_other_partial { content := c, pos := 0, clamps := true } ⟨rfl, rfl, rfl⟩ hb⟩
  | bytes c =>
    rw [C127_bytes.1 c]
    exact ⟨fun h => (by cases h), False.elim⟩
  | str => exact h.elim
  | other => exact h.elim

/-- A locator without room for what it locates: a file says no, a buffer says yes. -/
example : isZipstream (.stream { content := locatorSig ++ List.replicate 16 0 ++ emptyZip, pos := 3 }) = .ok (false, 3) ∧
    isZipstream (.view (locatorSig ++ List.replicate 16 0 ++ emptyZip)) = .ok (true, 0) ∧
    isZipstream (.stream { content := locatorSig ++ emptyZip, pos := 3 }) = .ok (true, 3) := by decide +kernel

example : Locates true (locatorSig ++ List.replicate 16 0 ++ emptyZip) 20 :=
  fun _ => .inr ⟨⟨by decide +kernel, .inl (by decide +kernel)⟩, .inr rfl⟩

end Javatools
