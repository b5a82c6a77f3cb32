import Verif.Proofs.ClassFile
/-
Soundness of decoding routines: what the consumed bytes must have been, given that the routine
succeeded. The converse of `Decodes`.
-/
namespace Javatools
open Spec

/-- Whenever `p` succeeds, the bytes it consumed stand in relation `R` to its result. -/
def Sound {α : Type} (p : Prog α) (R : Bytes → α → Prop) : Prop :=
  ∀ (d : Bytes) (off : Nat) (a : α) (s' : BufSt), off ≤ d.length →
    p.runBuf ⟨some d, off⟩ = (.ok a, s') →
    ∃ bs rest, R bs a ∧ d.drop off = bs ++ rest ∧ s' = ⟨some d, off + bs.length⟩

theorem Sound.mono {α : Type} {p : Prog α} {R S : Bytes → α → Prop} (h : Sound p R)
    (hRS : ∀ bs a, R bs a → S bs a) : Sound p S := by
  intro d off a s' ho hr
  obtain ⟨bs, rest, h1, h2, h3⟩ := h d off a s' ho hr
  exact ⟨bs, rest, hRS _ _ h1, h2, h3⟩

theorem Sound.ret {α : Type} (a : α) : Sound (.ret a) (fun bs x => bs = [] ∧ x = a) := by
  intro d off x s' _ hr
  simp only [Prog.runBuf, Prod.mk.injEq, Except.ok.injEq] at hr
  exact ⟨[], d.drop off, ⟨rfl, hr.1.symm⟩, rfl, hr.2.symm⟩

theorem Sound.fail {α : Type} (e : PyErr) : Sound (.fail e : Prog α) (fun _ _ => False) := by
  intro d off x s' _ hr
  simp [Prog.runBuf] at hr

theorem Sound.lift {α : Type} (r : Res α) : Sound (Prog.lift r) (fun bs a => bs = [] ∧ r = .ok a) := by
  cases r with
  | ok a => exact (Sound.ret a).mono (fun bs x h => ⟨h.1, by rw [h.2]⟩)
  | error e => exact (Sound.fail e).mono (fun _ _ h => h.elim)

theorem drop_of_drop_append {d b1 r : Bytes} {off : Nat} (h : d.drop off = b1 ++ r) :
    d.drop (off + b1.length) = r := by
  rw [← List.drop_drop, h, List.drop_append_of_le_length (Nat.le_refl _), List.drop_length,
    List.nil_append]

theorem le_of_drop_append {d b1 r : Bytes} {off : Nat} (ho : off ≤ d.length)
    (h : d.drop off = b1 ++ r) : off + b1.length ≤ d.length := by
  have := congrArg List.length h
  simp at this
  omega

theorem Sound.bind {α β : Type} {p : Prog α} {f : α → Prog β} {R : Bytes → α → Prop}
    {S : α → Bytes → β → Prop} (h1 : Sound p R) (h2 : ∀ a, Sound (f a) (S a)) :
    Sound (p.bind f) (fun bs b => ∃ b1 b2 a, bs = b1 ++ b2 ∧ R b1 a ∧ S a b2 b) := by
  intro d off b s' ho hr
  rw [runBuf_bind] at hr
  cases hp : p.runBuf ⟨some d, off⟩ with
  | mk r s =>
    rw [hp] at hr
    cases r with
    | error e => simp at hr
    | ok a =>
      simp only at hr
      obtain ⟨b1, r1, e1, e2, e3⟩ := h1 d off a s ho hp
      subst e3
      obtain ⟨b2, r2, g1, g2, g3⟩ := h2 a d _ b s' (le_of_drop_append ho e2) hr
      rw [drop_of_drop_append e2] at g2
      refine ⟨b1 ++ b2, r2, ⟨b1, b2, a, rfl, e1, g1⟩, ?_, ?_⟩
      · rw [e2, g2, List.append_assoc]
      · rw [g3, List.length_append, Nat.add_assoc]

theorem Sound.read {α : Type} {fmt : Option String} {n : Nat} {k : Bytes → Prog α}
    {S : Bytes → Bytes → α → Prop} (h : ∀ bs, bs.length = n → Sound (k bs) (S bs)) :
    Sound (.read fmt n k) (fun bs a => ∃ b1 b2, bs = b1 ++ b2 ∧ b1.length = n ∧ S b1 b2 a) := by
  intro d off a s' ho hr
  by_cases hn : off + n ≤ d.length
  · simp only [Prog.runBuf, BufSt.read_ok fmt hn] at hr
    have hl : ((d.drop off).take n).length = n := by simp; omega
    obtain ⟨b2, r2, g1, g2, g3⟩ := h _ hl d (off + n) a s' hn hr
    refine ⟨(d.drop off).take n ++ b2, r2, ⟨_, b2, rfl, hl, g1⟩, ?_, ?_⟩
    · rw [List.append_assoc, ← g2, ← List.drop_drop, List.take_append_drop]
    · rw [g3, List.length_append, hl, Nat.add_assoc]
  · simp only [Prog.runBuf] at hr
    rw [BufSt.read_short fmt ho (by omega)] at hr
    simp at hr

/-- A single read followed by a pure computation. -/
theorem Sound.read_ret {α : Type} {fmt : Option String} {n : Nat} (f : Bytes → α) :
    Sound (.read fmt n fun bs => .ret (f bs)) (fun bs a => bs.length = n ∧ a = f bs) := by
  refine (Sound.read (fun bs _ => Sound.ret (f bs))).mono ?_
  rintro bs a ⟨b1, b2, rfl, hl, rfl, rfl⟩
  simp [hl]

/-- Sound with the result of `f` applied. -/
theorem Sound.bind_ret {α β : Type} {p : Prog α} {R : Bytes → α → Prop} (f : α → β)
    (h : Sound p R) : Sound (p.bind fun x => .ret (f x)) (fun bs b => ∃ a, R bs a ∧ b = f a) := by
  refine (Sound.bind h (fun a => Sound.ret (f a))).mono ?_
  rintro bs b ⟨b1, b2, a, rfl, h1, rfl, rfl⟩
  exact ⟨a, by simpa using h1, rfl⟩

theorem Sound.times {α β : Type} {p : Prog α} {enc : β → Bytes} {f : β → α} {V : β → Prop}
    (h : Sound p (fun bs a => ∃ x, V x ∧ bs = enc x ∧ a = f x)) (n : Nat) :
    Sound (Prog.times n p) (fun bs as => ∃ xs : List β, xs.length = n ∧ (∀ x ∈ xs, V x) ∧
      bs = xs.flatMap enc ∧ as = xs.map f) := by
  induction n with
  | zero =>
    refine (Sound.ret []).mono ?_
    rintro bs as ⟨rfl, rfl⟩
    exact ⟨[], rfl, by simp, rfl, rfl⟩
  | succ n ih =>
    refine (Sound.bind h (fun a => Sound.bind_ret (fun as => a :: as) ih)).mono ?_
    rintro bs as ⟨b1, b2, a, rfl, ⟨x, hx, rfl, rfl⟩, as', ⟨xs, hl, hv, rfl, rfl⟩, rfl⟩
    refine ⟨x :: xs, by simp [hl], ?_, by simp, by simp⟩
    intro y hy
    rcases List.mem_cons.1 hy with rfl | hy
    · exact hx
    · exact hv y hy

theorem be_beNat_of {w : Nat} {bs : Bytes} (h : bs.length = w) :
    beNat bs < 256 ^ w ∧ be w (beNat bs) = bs := by
  subst h
  exact ⟨beNat_lt bs, be_beNat bs⟩

theorem Sound.nat {fmt : Option String} (w : Nat) :
    Sound (.read fmt w fun bs => .ret (beNat bs)) (fun bs n => n < 256 ^ w ∧ bs = be w n) := by
  refine (Sound.read_ret beNat).mono ?_
  rintro bs a ⟨hl, rfl⟩
  exact ⟨(be_beNat_of hl).1, (be_beNat_of hl).2.symm⟩

theorem Sound.u1 : Sound u1 (fun bs n => n < 256 ∧ bs = be 1 n) :=
  (Sound.nat 1).mono (fun _ _ h => ⟨by simpa using h.1, h.2⟩)

theorem Sound.u2 : Sound u2 (fun bs n => n < 65536 ∧ bs = be 2 n) :=
  (Sound.nat 2).mono (fun _ _ h => ⟨by simpa using h.1, h.2⟩)

theorem Sound.int {fmt : Option String} (w : Nat) :
    Sound (.read fmt (w + 1) fun bs => .ret (toSigned (w + 1) (beNat bs)))
      (fun bs v => SRange (w + 1) v ∧ bs = beInt (w + 1) v) := by
  refine (Sound.read_ret (fun bs => toSigned (w + 1) (beNat bs))).mono ?_
  rintro bs a ⟨hl, rfl⟩
  obtain ⟨h1, h2⟩ := be_beNat_of hl
  refine ⟨toSigned_range w _ h1, ?_⟩
  rw [beInt, mod_toSigned _ _ h1, h2]

/-- Splitting a byte string at `w`. -/
theorem split_be (w : Nat) (bs : Bytes) (h : w ≤ bs.length) :
    beNat (bs.take w) < 256 ^ w ∧ bs = be w (beNat (bs.take w)) ++ bs.drop w := by
  obtain ⟨h1, h2⟩ := be_beNat_of (w := w) (bs := bs.take w) (by simp; omega)
  exact ⟨h1, by rw [h2, List.take_append_drop]⟩

theorem Sound.u2u2 :
    Sound u2u2 (fun bs p => (p.1 < 65536 ∧ p.2 < 65536) ∧ bs = be 2 p.1 ++ be 2 p.2) := by
  refine (Sound.read_ret _).mono ?_
  rintro bs a ⟨hl, rfl⟩
  obtain ⟨h1, h2⟩ := split_be 2 bs (by omega)
  obtain ⟨h3, h4⟩ := be_beNat_of (w := 2) (bs := bs.drop 2) (by simp; omega)
  refine ⟨⟨by simpa using h1, by simpa using h3⟩, ?_⟩
  simp only
  rw [h4, ← h2]

theorem Sound.u2u4 :
    Sound u2u4 (fun bs p => (p.1 < 65536 ∧ p.2 < 4294967296) ∧ bs = be 2 p.1 ++ be 4 p.2) := by
  refine (Sound.read_ret _).mono ?_
  rintro bs a ⟨hl, rfl⟩
  obtain ⟨h1, h2⟩ := split_be 2 bs (by omega)
  obtain ⟨h3, h4⟩ := be_beNat_of (w := 4) (bs := bs.drop 2) (by simp; omega)
  refine ⟨⟨by simpa using h1, by simpa using h3⟩, ?_⟩
  simp only
  rw [h4, ← h2]

theorem Sound.u1u2 :
    Sound u1u2 (fun bs p => (p.1 < 256 ∧ p.2 < 65536) ∧ bs = be 1 p.1 ++ be 2 p.2) := by
  refine (Sound.read_ret _).mono ?_
  rintro bs a ⟨hl, rfl⟩
  obtain ⟨h1, h2⟩ := split_be 1 bs (by omega)
  obtain ⟨h3, h4⟩ := be_beNat_of (w := 2) (bs := bs.drop 1) (by simp; omega)
  refine ⟨⟨by simpa using h1, by simpa using h3⟩, ?_⟩
  simp only
  rw [h4, ← h2]

theorem Sound.u2u2u2 :
    Sound u2u2u2 (fun bs p => (p.1 < 65536 ∧ p.2.1 < 65536 ∧ p.2.2 < 65536) ∧
      bs = be 2 p.1 ++ (be 2 p.2.1 ++ be 2 p.2.2)) := by
  refine (Sound.read_ret _).mono ?_
  rintro bs a ⟨hl, rfl⟩
  obtain ⟨h1, h2⟩ := split_be 2 bs (by omega)
  obtain ⟨h3, h4⟩ := split_be 2 (bs.drop 2) (by simp; omega)
  obtain ⟨h5, h6⟩ := be_beNat_of (w := 2) (bs := bs.drop 4) (by simp; omega)
  rw [List.drop_drop] at h4
  refine ⟨⟨by simpa using h1, by simpa using h3, by simpa using h5⟩, ?_⟩
  simp only
  rw [h6, ← h4, ← h2]

theorem Sound.u2u2u4 :
    Sound u2u2u4 (fun bs p => (p.1 < 65536 ∧ p.2.1 < 65536 ∧ p.2.2 < 4294967296) ∧
      bs = be 2 p.1 ++ (be 2 p.2.1 ++ be 4 p.2.2)) := by
  refine (Sound.read_ret _).mono ?_
  rintro bs a ⟨hl, rfl⟩
  obtain ⟨h1, h2⟩ := split_be 2 bs (by omega)
  obtain ⟨h3, h4⟩ := split_be 2 (bs.drop 2) (by simp; omega)
  obtain ⟨h5, h6⟩ := be_beNat_of (w := 4) (bs := bs.drop 4) (by simp; omega)
  rw [List.drop_drop] at h4
  refine ⟨⟨by simpa using h1, by simpa using h3, by simpa using h5⟩, ?_⟩
  simp only
  rw [h6, ← h4, ← h2]

theorem Sound.u2x4 :
    Sound u2x4 (fun bs p => (p.1 < 65536 ∧ p.2.1 < 65536 ∧ p.2.2.1 < 65536 ∧ p.2.2.2 < 65536) ∧
      bs = be 2 p.1 ++ (be 2 p.2.1 ++ (be 2 p.2.2.1 ++ be 2 p.2.2.2))) := by
  refine (Sound.read_ret _).mono ?_
  rintro bs a ⟨hl, rfl⟩
  obtain ⟨h1, h2⟩ := split_be 2 bs (by omega)
  obtain ⟨h3, h4⟩ := split_be 2 (bs.drop 2) (by simp; omega)
  obtain ⟨h5, h6⟩ := split_be 2 (bs.drop 4) (by simp; omega)
  obtain ⟨h7, h8⟩ := be_beNat_of (w := 2) (bs := bs.drop 6) (by simp; omega)
  rw [List.drop_drop] at h4 h6
  refine ⟨⟨by simpa using h1, by simpa using h3, by simpa using h5, by simpa using h7⟩, ?_⟩
  simp only
  rw [h8, ← h6, ← h4, ← h2]

theorem Sound.readBytes (n : Nat) : Sound (readBytes n) (fun bs x => bs.length = n ∧ x = bs) :=
  Sound.read_ret id

theorem u2s_sound (n : Nat) (bs : Bytes) (h : bs.length = 2 * n) :
    ∃ ns : List Nat, ns.length = n ∧ (∀ i ∈ ns, i < 65536) ∧ bs = ns.flatMap (be 2) ∧
      (structUnpack (List.replicate n .H) bs).map Int.toNat = ns := by
  induction n generalizing bs with
  | zero =>
    have : bs = [] := List.length_eq_zero_iff.1 (by omega)
    subst this
    exact ⟨[], rfl, by simp, rfl, rfl⟩
  | succ n ih =>
    obtain ⟨h1, h2⟩ := split_be 2 bs (by omega)
    obtain ⟨ns, i1, i2, i3, i4⟩ := ih (bs.drop 2) (by simp; omega)
    refine ⟨beNat (bs.take 2) :: ns, by simp [i1], ?_, ?_, ?_⟩
    · intro i hi
      rcases List.mem_cons.1 hi with rfl | hi
      · simpa using h1
      · exact i2 i hi
    · rw [List.flatMap_cons, ← i3, ← h2]
    · simp only [List.replicate_succ, structUnpack, FmtCode.size, FmtCode.decode, FmtCode.signed,
        Bool.false_eq_true, if_false, List.map_cons, i4]
      simp

theorem Sound.u2s (n : Nat) :
    Sound (u2s n) (fun bs ns => ns.length = n ∧ (∀ i ∈ ns, i < 65536) ∧ bs = ns.flatMap (be 2)) := by
  refine (Sound.read_ret _).mono ?_
  rintro bs a ⟨hl, rfl⟩
  obtain ⟨ns, i1, i2, i3, i4⟩ := u2s_sound n bs hl
  rw [i4]
  exact ⟨i1, i2, i3⟩

theorem Sound.counted {α β : Type} {p : Prog α} {enc : β → Bytes} {f : β → α} {V : β → Prop}
    (h : Sound p (fun bs a => ∃ x, V x ∧ bs = enc x ∧ a = f x)) :
    Sound (counted p) (fun bs as => ∃ xs : List β, xs.length < 65536 ∧ (∀ x ∈ xs, V x) ∧
      bs = be 2 xs.length ++ xs.flatMap enc ∧ as = xs.map f) := by
  refine (Sound.bind Sound.u2 (fun n => Sound.times h n)).mono ?_
  rintro bs as ⟨b1, b2, n, rfl, ⟨hn, rfl⟩, xs, rfl, hv, rfl, rfl⟩
  exact ⟨xs, hn, hv, rfl, rfl⟩

/-- From a whole buffer: the buffer starts with the consumed bytes. -/
theorem Sound.run {α : Type} {p : Prog α} {R : Bytes → α → Prop} (h : Sound p R) {d : Bytes} {a : α}
    (hr : p.run d = .ok a) : ∃ bs rest, d = bs ++ rest ∧ R bs a := by
  unfold Prog.run at hr
  cases hp : p.runBuf ⟨some d, 0⟩ with
  | mk r s =>
    rw [hp] at hr
    simp only at hr
    subst hr
    obtain ⟨bs, rest, h1, h2, _⟩ := h d 0 a s (Nat.zero_le _) hp
    exact ⟨bs, rest, by simpa using h2, h1⟩

end Javatools
