import Verif.Proofs.Sound
import Verif.Spec.RawClass
import Verif.Props.ClassFile
/-
C79: the class reader accepts class files and nothing else.
-/
namespace Javatools
open Spec

/-! ### Constants -/

theorem Decodes.rawConst (e : RawCp) (h : e.Fits) : Decodes unpackConstItem e.enc e.const := by
  cases e with
  | text raw =>
    unfold unpackConstItem RawCp.enc RawCp.const
    refine Decodes.bind (Decodes.u1 (by decide)) ?_
    simp only [if_true]
    refine Decodes.bind (Decodes.u2 h) ?_
    exact Decodes.bind_ret (f := fun raw => Const.utf8 (decodeUtf8Const raw)) (Decodes.readBytes raw)
  | other c => exact Decodes.constItem c h.1

theorem raw_width_cases (e : RawCp) : e.width = 1 ∨ e.width = 2 := by
  cases e with
  | text raw => exact .inl rfl
  | other c => exact width_cases c

theorem isWide_raw (e : RawCp) : e.const.isWide = decide (e.width = 2) := by
  cases e with
  | text raw => rfl
  | other c => exact isWide_constOf c

theorem sound_rawConst :
    Sound unpackConstItem (fun bs c => ∃ e : RawCp, e.Fits ∧ bs = e.enc ∧ c = e.const) := by
  have key : ∀ t, Sound (if t = 1 then u2.bind fun n => (readBytes n).bind fun raw =>
        .ret (.utf8 (decodeUtf8Const raw))
      else if t = 3 then .read (some ">i") 4 fun bs => .ret (.integer (toSigned 4 (beNat bs)))
      else if t = 4 then .read (some ">f") 4 fun bs => .ret (.float (beNat bs))
      else if t = 5 then .read (some ">q") 8 fun bs => .ret (.long (toSigned 8 (beNat bs)))
      else if t = 6 then .read (some ">d") 8 fun bs => .ret (.double (beNat bs))
      else if t = 7 then u2.bind fun n => .ret (.cls n)
      else if t = 8 then u2.bind fun n => .ret (.string n)
      else if t = 16 then u2.bind fun n => .ret (.methodType n)
      else if t = 19 then u2.bind fun n => .ret (.module n)
      else if t = 20 then u2.bind fun n => .ret (.package n)
      else if t = 9 then u2u2.bind fun p => .ret (.fieldref p.1 p.2)
      else if t = 10 then u2u2.bind fun p => .ret (.methodref p.1 p.2)
      else if t = 11 then u2u2.bind fun p => .ret (.ifaceMethodref p.1 p.2)
      else if t = 12 then u2u2.bind fun p => .ret (.nameAndType p.1 p.2)
      else if t = 13 then u2u2.bind fun p => .ret (.moduleId p.1 p.2)
      else if t = 18 then u2u2.bind fun p => .ret (.invokeDynamic p.1 p.2)
      else if t = 17 then u2u2.bind fun p => .ret (.dynamic p.1 p.2)
      else if t = 15 then u1u2.bind fun p => .ret (.methodHandle p.1 p.2)
      else .fail .unknownTag)
      (fun bs c => ∃ e : RawCp, e.Fits ∧ be 1 t ++ bs = e.enc ∧ c = e.const) := by
    intro t
    have one : ∀ (k : Nat → Const) (g : Nat → CpInfo), (∀ n, n < 65536 → (g n).Valid) →
        (∀ n us, g n ≠ .utf8 us) → (∀ n, (g n).enc = be 1 t ++ be 2 n) → (∀ n, constOf (g n) = k n) →
        Sound (u2.bind fun n => .ret (k n))
          (fun bs c => ∃ e : RawCp, e.Fits ∧ be 1 t ++ bs = e.enc ∧ c = e.const) := by
      intro k g hv hu he hc
      refine (Sound.bind_ret k Sound.u2).mono ?_
      rintro bs c ⟨n, ⟨hn, rfl⟩, rfl⟩
      exact ⟨.other (g n), ⟨hv n hn, hu n⟩, (he n).symm, (hc n).symm⟩
    have two : ∀ (k : Nat × Nat → Const) (g : Nat → Nat → CpInfo),
        (∀ a b, a < 65536 → b < 65536 → (g a b).Valid) →
        (∀ a b us, g a b ≠ .utf8 us) → (∀ a b, (g a b).enc = be 1 t ++ (be 2 a ++ be 2 b)) →
        (∀ a b, constOf (g a b) = k (a, b)) →
        Sound (u2u2.bind fun p => .ret (k p))
          (fun bs c => ∃ e : RawCp, e.Fits ∧ be 1 t ++ bs = e.enc ∧ c = e.const) := by
      intro k g hv hu he hc
      refine (Sound.bind_ret k Sound.u2u2).mono ?_
      rintro bs c ⟨p, ⟨hn, rfl⟩, rfl⟩
      exact ⟨.other (g p.1 p.2), ⟨hv _ _ hn.1 hn.2, hu _ _⟩, (he _ _).symm, (hc _ _).symm⟩
    by_cases h : t = 1
    · subst h; rw [if_pos rfl]
      refine (Sound.bind Sound.u2 (fun n => Sound.bind_ret
        (fun raw => Const.utf8 (decodeUtf8Const raw)) (Sound.readBytes n))).mono ?_
      rintro bs c ⟨b1, b2, n, rfl, ⟨hn, rfl⟩, raw, ⟨rfl, rfl⟩, rfl⟩
      exact ⟨.text raw, hn, rfl, rfl⟩
    rw [if_neg h]; clear h
    by_cases h : t = 3
    · subst h; rw [if_pos rfl]
      refine (Sound.read_ret _).mono ?_
      rintro bs c ⟨hl, rfl⟩
      obtain ⟨h1, h2⟩ := be_beNat_of hl
      refine ⟨.other (.integer _), ⟨toSigned_range 3 _ h1, nofun⟩, ?_, rfl⟩
      simp only [RawCp.enc, CpInfo.enc, beInt, mod_toSigned _ _ h1, h2]
    rw [if_neg h]; clear h
    by_cases h : t = 4
    · subst h; rw [if_pos rfl]
      refine (Sound.read_ret _).mono ?_
      rintro bs c ⟨hl, rfl⟩
      obtain ⟨h1, h2⟩ := be_beNat_of hl
      refine ⟨.other (.float _), ⟨h1, nofun⟩, ?_, rfl⟩
      simp only [RawCp.enc, CpInfo.enc, h2]
    rw [if_neg h]; clear h
    by_cases h : t = 5
    · subst h; rw [if_pos rfl]
      refine (Sound.read_ret _).mono ?_
      rintro bs c ⟨hl, rfl⟩
      obtain ⟨h1, h2⟩ := be_beNat_of hl
      refine ⟨.other (.long _), ⟨toSigned_range 7 _ h1, nofun⟩, ?_, rfl⟩
      simp only [RawCp.enc, CpInfo.enc, beInt, mod_toSigned _ _ h1, h2]
    rw [if_neg h]; clear h
    by_cases h : t = 6
    · subst h; rw [if_pos rfl]
      refine (Sound.read_ret _).mono ?_
      rintro bs c ⟨hl, rfl⟩
      obtain ⟨h1, h2⟩ := be_beNat_of hl
      refine ⟨.other (.double _), ⟨h1, nofun⟩, ?_, rfl⟩
      simp only [RawCp.enc, CpInfo.enc, h2]
    rw [if_neg h]; clear h
    by_cases h : t = 7
    · subst h; rw [if_pos rfl]
      exact one Const.cls .cls (fun _ h => h) nofun (fun _ => rfl) (fun _ => rfl)
    rw [if_neg h]; clear h
    by_cases h : t = 8
    · subst h; rw [if_pos rfl]
      exact one Const.string .string (fun _ h => h) nofun (fun _ => rfl) (fun _ => rfl)
    rw [if_neg h]; clear h
    by_cases h : t = 16
    · subst h; rw [if_pos rfl]
      exact one Const.methodType .methodType (fun _ h => h) nofun (fun _ => rfl) (fun _ => rfl)
    rw [if_neg h]; clear h
    by_cases h : t = 19
    · subst h; rw [if_pos rfl]
      exact one Const.module .module (fun _ h => h) nofun (fun _ => rfl) (fun _ => rfl)
    rw [if_neg h]; clear h
    by_cases h : t = 20
    · subst h; rw [if_pos rfl]
      exact one Const.package .package (fun _ h => h) nofun (fun _ => rfl) (fun _ => rfl)
    rw [if_neg h]; clear h
    by_cases h : t = 9
    · subst h; rw [if_pos rfl]
      exact two (fun p => Const.fieldref p.1 p.2) .fieldref (fun _ _ h h' => ⟨h, h'⟩) nofun
        (fun _ _ => rfl) (fun _ _ => rfl)
    rw [if_neg h]; clear h
    by_cases h : t = 10
    · subst h; rw [if_pos rfl]
      exact two (fun p => Const.methodref p.1 p.2) .methodref (fun _ _ h h' => ⟨h, h'⟩) nofun
        (fun _ _ => rfl) (fun _ _ => rfl)
    rw [if_neg h]; clear h
    by_cases h : t = 11
    · subst h; rw [if_pos rfl]
      exact two (fun p => Const.ifaceMethodref p.1 p.2) .ifaceMethodref (fun _ _ h h' => ⟨h, h'⟩)
        nofun (fun _ _ => rfl) (fun _ _ => rfl)
    rw [if_neg h]; clear h
    by_cases h : t = 12
    · subst h; rw [if_pos rfl]
      exact two (fun p => Const.nameAndType p.1 p.2) .nameAndType (fun _ _ h h' => ⟨h, h'⟩) nofun
        (fun _ _ => rfl) (fun _ _ => rfl)
    rw [if_neg h]; clear h
    by_cases h : t = 13
    · subst h; rw [if_pos rfl]
      exact two (fun p => Const.moduleId p.1 p.2) .moduleId (fun _ _ h h' => ⟨h, h'⟩) nofun
        (fun _ _ => rfl) (fun _ _ => rfl)
    rw [if_neg h]; clear h
    by_cases h : t = 18
    · subst h; rw [if_pos rfl]
      exact two (fun p => Const.invokeDynamic p.1 p.2) .invokeDynamic (fun _ _ h h' => ⟨h, h'⟩)
        nofun (fun _ _ => rfl) (fun _ _ => rfl)
    rw [if_neg h]; clear h
    by_cases h : t = 17
    · subst h; rw [if_pos rfl]
      exact two (fun p => Const.dynamic p.1 p.2) .dynamic (fun _ _ h h' => ⟨h, h'⟩) nofun
        (fun _ _ => rfl) (fun _ _ => rfl)
    rw [if_neg h]; clear h
    by_cases h : t = 15
    · subst h; rw [if_pos rfl]
      refine (Sound.bind_ret (fun p : Nat × Nat => Const.methodHandle p.1 p.2) Sound.u1u2).mono ?_
      rintro bs c ⟨p, ⟨hn, rfl⟩, rfl⟩
      exact ⟨.other (.methodHandle p.1 p.2), ⟨hn, nofun⟩, rfl, rfl⟩
    rw [if_neg h]
    exact (Sound.fail _).mono (fun _ _ h => h.elim)
  unfold unpackConstItem
  refine (Sound.bind Sound.u1 key).mono ?_
  rintro bs c ⟨b1, b2, t, rfl, ⟨_, rfl⟩, e, h1, h2, h3⟩
  exact ⟨e, h1, h2, h3⟩

/-! ### The pool -/

theorem fill_nil {n : Nat} : RawCp.Fill n [] ↔ n = 0 := by
  simp [RawCp.Fill]

theorem fill_cons {n : Nat} {e : RawCp} {es : List RawCp} :
    RawCp.Fill n (e :: es) ↔ 0 < n ∧ RawCp.Fill (n - e.width) es := by
  unfold RawCp.Fill
  constructor
  · rintro ⟨h1, h2⟩
    have h0 : 0 < n := by simpa using h2 0 (by simp)
    refine ⟨h0, ?_, ?_⟩
    · simp only [List.map_cons, List.sum_cons] at h1; omega
    · intro k hk
      have := h2 (k + 1) (by simpa using hk)
      simp only [List.take_succ_cons, List.map_cons, List.sum_cons] at this
      omega
  · rintro ⟨h0, h1, h2⟩
    refine ⟨by simp only [List.map_cons, List.sum_cons]; omega, ?_⟩
    intro k hk
    cases k with
    | zero => simpa using h0
    | succ k =>
      have := h2 k (by simpa using hk)
      simp only [List.take_succ_cons, List.map_cons, List.sum_cons]
      omega

/-- The slots kept of a pool of `n` slots. -/
def rawPool (n : Nat) (es : List RawCp) : Pool := ((RawCp.slots es).take n).map (Option.map RawCp.const)

theorem rawPool_one (n : Nat) (e : RawCp) (es : List RawCp) (h : e.width = 1) :
    rawPool (n + 1) (e :: es) = some e.const :: rawPool n es := by
  simp [rawPool, RawCp.slots, h]

theorem rawPool_two (n : Nat) (e : RawCp) (es : List RawCp) (h : e.width = 2) :
    rawPool (n + 2) (e :: es) = some e.const :: none :: rawPool n es := by
  simp [rawPool, RawCp.slots, h]

theorem rawPool_zero (es : List RawCp) : rawPool 0 es = [] := by simp [rawPool]

theorem rawPool_cut (e : RawCp) (es : List RawCp) :
    rawPool 1 (e :: es) = [some e.const] := by
  simp [rawPool, RawCp.slots]

theorem Decodes.rawPoolLoop (es : List RawCp) (n : Nat) (h : ∀ e ∈ es, e.Fits)
    (hf : RawCp.Fill n es) :
    Decodes (Javatools.poolLoop n false) (es.flatMap RawCp.enc) (rawPool n es) := by
  induction es generalizing n with
  | nil =>
    rw [fill_nil] at hf
    subst hf
    rw [rawPool_zero]
    exact Decodes.ret []
  | cons e es ih =>
    obtain ⟨h0, hf⟩ := fill_cons.1 hf
    have he := Decodes.rawConst e (h e (by simp))
    have ih' := fun n hn => ih n (fun x hx => h x (by simp [hx])) hn
    obtain ⟨m, rfl⟩ : ∃ m, n = m + 1 := ⟨n - 1, by omega⟩
    simp only [Javatools.poolLoop, List.flatMap_cons]
    refine Decodes.bind he ?_
    rw [isWide_raw]
    rcases raw_width_cases e with hw | hw
    · rw [hw, rawPool_one _ _ _ hw]
      rw [hw] at hf
      exact Decodes.bind_ret (f := fun r => some e.const :: r) (ih' m hf)
    · rw [hw]
      rw [hw] at hf
      cases m with
      | zero =>
        have h1 : es = [] := by
          cases es with
          | nil => rfl
          | cons x xs => exact absurd (fill_cons.1 hf).1 (by omega)
        subst h1
        rw [rawPool_cut]
        exact Decodes.bind_ret (f := fun r => some e.const :: r) (Decodes.ret [])
      | succ k =>
        rw [rawPool_two _ _ _ hw]
        simp only [decide_true, Javatools.poolLoop]
        exact Decodes.bind_ret (f := fun r => some e.const :: r)
          (Decodes.bind_ret (f := fun r => none :: r) (ih' k (by simpa using hf)))

theorem sound_rawPoolLoop (n : Nat) :
    Sound (poolLoop n false) (fun bs p => ∃ es : List RawCp, (∀ e ∈ es, e.Fits) ∧ RawCp.Fill n es ∧
      bs = es.flatMap RawCp.enc ∧ p = rawPool n es) := by
  induction n using Nat.strongRecOn with
  | ind n ih =>
    cases n with
    | zero =>
      refine (Sound.ret []).mono ?_
      rintro bs p ⟨rfl, rfl⟩
      exact ⟨[], by simp, fill_nil.2 rfl, rfl, rfl⟩
    | succ n =>
      have step : ∀ c : Const, Sound (poolLoop n c.isWide)
          (fun bs p => ∀ e : RawCp, e.Fits → c = e.const → ∃ es : List RawCp,
            (∀ x ∈ e :: es, x.Fits) ∧ RawCp.Fill (n + 1) (e :: es) ∧
            e.enc ++ bs = (e :: es).flatMap RawCp.enc ∧
            some c :: p = rawPool (n + 1) (e :: es)) := by
        intro c
        cases hc : c.isWide with
        | false =>
          refine (ih n (by omega)).mono ?_
          rintro bs p ⟨es, h1, h2, rfl, rfl⟩ e he rfl
          rw [isWide_raw] at hc
          have hw : e.width = 1 := by
            rcases raw_width_cases e with h | h
            · exact h
            · simp [h] at hc
          refine ⟨es, by simpa using ⟨he, h1⟩, fill_cons.2 ⟨by omega, by rw [hw]; exact h2⟩,
            by simp, (rawPool_one _ _ _ hw).symm⟩
        | true =>
          cases n with
          | zero =>
            refine (Sound.ret []).mono ?_
            rintro bs p ⟨rfl, rfl⟩ e he rfl
            rw [isWide_raw] at hc
            have hw : e.width = 2 := by simpa using hc
            exact ⟨[], by simpa using he, fill_cons.2 ⟨by omega, by rw [hw]; exact fill_nil.2 rfl⟩,
              by simp, (rawPool_cut _ _).symm⟩
          | succ k =>
            refine (Sound.bind_ret (fun r => none :: r) (ih k (by omega))).mono ?_
            rintro bs p ⟨q, ⟨es, h1, h2, rfl, rfl⟩, rfl⟩ e he rfl
            rw [isWide_raw] at hc
            have hw : e.width = 2 := by simpa using hc
            refine ⟨es, by simpa using ⟨he, h1⟩,
              fill_cons.2 ⟨by omega, by rw [hw]; simpa using h2⟩, by simp,
              (rawPool_two _ _ _ hw).symm⟩
      simp only [Javatools.poolLoop]
      refine (Sound.bind sound_rawConst (fun c => Sound.bind_ret (fun r => some c :: r) (step c))).mono ?_
      rintro bs p ⟨b1, b2, c, rfl, ⟨e, he, rfl, rfl⟩, q, hq, rfl⟩
      obtain ⟨es, h1, h2, h3, h4⟩ := hq e he rfl
      exact ⟨e :: es, h1, h2, h3, h4⟩

theorem sound_rawPool1 :
    Sound unpackPool (fun bs p => ∃ (n : Nat) (es : List RawCp), n < 65536 ∧ (∀ e ∈ es, e.Fits) ∧
      RawCp.Fill (n - 1) es ∧ bs = be 2 n ++ es.flatMap RawCp.enc ∧
      p = none :: rawPool (n - 1) es) := by
  refine (Sound.bind Sound.u2 (fun n => Sound.bind_ret (fun r => none :: r)
    (sound_rawPoolLoop (n - 1)))).mono ?_
  rintro bs p ⟨b1, b2, n, rfl, ⟨hn, rfl⟩, q, ⟨es, h1, h2, rfl, rfl⟩, rfl⟩
  exact ⟨n, es, hn, h1, h2, rfl, rfl⟩

/-! ### Attributes and members -/

theorem keyAt_of {pool : Pool} {lim i : Nat} {k : PVal} (h : deref pool lim i = .ok k) :
    keyAt pool lim i = k := by
  unfold keyAt; rw [h]

theorem Decodes.rawAttr {pool : Pool} {lim : Nat} {a : AttrS} (h : a.Fits pool lim) :
    Decodes (unpackAttr pool lim) a.enc (keyAt pool lim a.name, a.info) := by
  obtain ⟨hn, hl, k, hk⟩ := h
  unfold unpackAttr AttrS.enc
  refine Decodes.bind (Decodes.u2u4 hn (by simpa using hl)) ?_
  simp only
  have h1 : Decodes ((Prog.lift (deref pool lim a.name)).bind fun k => Prog.ret (k, a.info)) []
      (keyAt pool lim a.name, a.info) := by
    rw [keyAt_of hk]
    exact Decodes.bind_ret (f := fun k => (k, a.info)) (Decodes.lift hk)
  have h2 := Decodes.bind (f := fun buf => (Prog.lift (deref pool lim a.name)).bind
      fun k => Prog.ret (k, buf)) (Decodes.readBytes a.info) h1
  simpa using h2

theorem sound_rawAttr (pool : Pool) (lim : Nat) :
    Sound (unpackAttr pool lim) (fun bs x => ∃ a : AttrS, a.Fits pool lim ∧ bs = a.enc ∧
      x = (keyAt pool lim a.name, a.info)) := by
  unfold unpackAttr
  refine (Sound.bind Sound.u2u4 (fun h => Sound.bind (Sound.readBytes h.2) (fun buf =>
    Sound.bind_ret (fun k => (k, buf)) (Sound.lift (deref pool lim h.1))))).mono ?_
  rintro bs x ⟨b1, b2, ⟨n, l⟩, rfl, ⟨⟨hn, hl⟩, rfl⟩, b3, b4, buf, rfl, ⟨hbl, rfl⟩, k, ⟨rfl, hk⟩, rfl⟩
  simp only at hbl hn hl hk
  subst hbl
  refine ⟨⟨n, buf⟩, ⟨hn, hl, k, hk⟩, ?_, ?_⟩
  · simp [AttrS.enc]
  · simp only [keyAt_of hk]

theorem Decodes.rawAttribs {pool : Pool} {lim : Nat} {as : List AttrS} (hl : as.length < 65536)
    (h : ∀ a ∈ as, a.Fits pool lim) :
    Decodes (unpackAttribs pool lim) (encAttrs as) (attribsAt pool lim as) :=
  Decodes.bind_ret (f := PyDict.ofPairs)
    (Decodes.counted AttrS.enc (fun a => (keyAt pool lim a.name, a.info)) as hl
      (fun a ha => Decodes.rawAttr (h a ha)))

theorem sound_rawAttribs (pool : Pool) (lim : Nat) :
    Sound (unpackAttribs pool lim) (fun bs x => ∃ as : List AttrS, (as.length < 65536 ∧
      ∀ a ∈ as, a.Fits pool lim) ∧ bs = encAttrs as ∧ x = attribsAt pool lim as) := by
  unfold unpackAttribs
  refine (Sound.bind_ret PyDict.ofPairs (Sound.counted (sound_rawAttr pool lim))).mono ?_
  rintro bs x ⟨ps, ⟨as, hl, hv, rfl, rfl⟩, rfl⟩
  exact ⟨as, ⟨hl, hv⟩, rfl, rfl⟩

theorem Decodes.rawMember {pool : Pool} {lim : Nat} {m : MemberS} (h : m.Fits pool lim)
    (isM : Bool) : Decodes (unpackMember pool lim isM) m.enc (memberAt pool lim isM m) := by
  obtain ⟨h1, h2, h3, h4, h5⟩ := h
  exact Decodes.bind (Decodes.u2u2u2 h1 h2 h3)
    (Decodes.bind_ret (f := fun a => (⟨m.access, m.name, m.desc, a, isM⟩ : Member))
      (Decodes.rawAttribs h4 h5))

theorem sound_rawMember (pool : Pool) (lim : Nat) (isM : Bool) :
    Sound (unpackMember pool lim isM) (fun bs x => ∃ m : MemberS, m.Fits pool lim ∧ bs = m.enc ∧
      x = memberAt pool lim isM m) := by
  unfold unpackMember
  refine (Sound.bind Sound.u2u2u2 (fun h => Sound.bind_ret
    (fun a => (⟨h.1, h.2.1, h.2.2, a, isM⟩ : Member)) (sound_rawAttribs pool lim))).mono ?_
  rintro bs x ⟨b1, b2, ⟨a, n, d⟩, rfl, ⟨⟨ha, hn, hd⟩, rfl⟩, at', ⟨as, ⟨hl, hv⟩, rfl, rfl⟩, rfl⟩
  exact ⟨⟨a, n, d, as⟩, ⟨ha, hn, hd, hl, hv⟩, rfl, rfl⟩

/-! ### The class -/

theorem Decodes.rawClass (c : RawClass) (lim : Nat) (h : c.Fits lim) :
    Decodes (unpackClassProg lim) c.enc (c.object lim) := by
  obtain ⟨⟨hmi, hma⟩, ⟨hcc, hp, hfill⟩, ⟨hac, hth, hsu⟩, ⟨hil, hi⟩, ⟨hfl, hf⟩, ⟨hml, hm⟩, hal, ha⟩ := h
  unfold unpackClassProg RawClass.enc
  refine Decodes.bind (a := javaMagic) (Decodes.read_ret rfl rfl) ?_
  simp only [ne_eq, not_true_eq_false, if_false]
  unfold unpackClassBody
  refine Decodes.bind (Decodes.u2u2 hmi hma) ?_
  have hpool : Decodes Javatools.unpackPool (be 2 c.count ++ c.consts.flatMap RawCp.enc) c.pool :=
    Decodes.bind (Decodes.u2 hcc) (Decodes.bind_ret (f := fun r => none :: r)
      (Decodes.rawPoolLoop c.consts _ hp hfill))
  refine Decodes.bind hpool ?_
  refine Decodes.bind (Decodes.u2u2u2 hac hth hsu) ?_
  refine Decodes.bind (Decodes.u2 hil) ?_
  refine Decodes.bind (Decodes.u2s c.interfaces hi) ?_
  refine Decodes.bind (Decodes.counted MemberS.enc (memberAt c.pool lim false) c.fields hfl
    (fun m hm => Decodes.rawMember (hf m hm) false)) ?_
  refine Decodes.bind (Decodes.counted MemberS.enc (memberAt c.pool lim true) c.methods hml
    (fun m hm' => Decodes.rawMember (hm m hm') true)) ?_
  exact Decodes.bind_ret (f := fun attribs => (⟨(c.major, c.minor), c.pool, c.access, c.this,
    c.super, c.interfaces, c.fields.map (memberAt c.pool lim false),
    c.methods.map (memberAt c.pool lim true), attribs⟩ : ClassInfo)) (Decodes.rawAttribs hal ha)

theorem sound_rawClass (lim : Nat) :
    Sound (unpackClassProg lim) (fun bs r => ∃ c : RawClass, c.Fits lim ∧ bs = c.enc ∧
      r = c.object lim) := by
  have body := fun (v : Nat × Nat) => Sound.bind sound_rawPool1 (fun pool =>
    Sound.bind Sound.u2u2u2 (fun h => Sound.bind Sound.u2 (fun nifs =>
    Sound.bind (Sound.u2s nifs) (fun ifs =>
    Sound.bind (Sound.counted (sound_rawMember pool lim false)) (fun fields =>
    Sound.bind (Sound.counted (sound_rawMember pool lim true)) (fun methods =>
    Sound.bind_ret (fun attribs => (⟨(v.2, v.1), pool, h.1, h.2.1, h.2.2, ifs, fields, methods,
      attribs⟩ : ClassInfo)) (sound_rawAttribs pool lim)))))))
  have whole := Sound.bind Sound.u2u2 body
  have magic : Sound readMagic (fun bs m => bs = m) :=
    (Sound.read_ret id).mono (fun bs m h => h.2.symm)
  have all : Sound (unpackClassProg lim) _ := Sound.bind magic
    (S := fun m bs r => m = javaMagic ∧ _) (fun m => by
      by_cases hm : m = javaMagic
      · have e : (if m ≠ javaMagic then Prog.fail PyErr.classUnpack else unpackClassBody lim)
            = unpackClassBody lim := if_neg (by simp [hm])
        rw [e]
        exact whole.mono (fun bs r h => ⟨hm, h⟩)
      · rw [if_pos hm]
        exact (Sound.fail _).mono (fun _ _ h => h.elim))
  refine all.mono ?_
  rintro bs r ⟨b1, b2, m, rfl, rfl, rfl, b3, b4, ⟨mi, ma⟩, rfl, ⟨⟨hmi, hma⟩, rfl⟩,
    b5, b6, pool, rfl, ⟨n, es, hn, hes, hfill, rfl, rfl⟩,
    b7, b8, ⟨ac, th, su⟩, rfl, ⟨⟨hac, hth, hsu⟩, rfl⟩,
    b9, b10, nifs, rfl, ⟨hnifs, rfl⟩,
    b11, b12, ifs, rfl, ⟨hifl, hif, rfl⟩,
    b13, b14, flds, rfl, ⟨fs, hfl, hf, rfl, rfl⟩,
    b15, b16, mths, rfl, ⟨ms, hml, hm, rfl, rfl⟩,
    at', ⟨as, ⟨hal, ha⟩, rfl, rfl⟩, rfl⟩
  subst hifl
  exact ⟨⟨mi, ma, n, es, ac, th, su, ifs, fs, ms, as⟩,
    ⟨⟨hmi, hma⟩, ⟨hn, hes, hfill⟩, ⟨hac, hth, hsu⟩, ⟨hnifs, hif⟩, ⟨hfl, hf⟩, ⟨hml, hm⟩, hal, ha⟩,
    rfl, rfl⟩

/-! ## C79 -/

/-- C79. `unpack_class` succeeds on exactly the byte strings that start with a class file, and
returns what that class file says: every number, constant, member and attribute of the object
is in the bytes, and every byte of the class file is accounted for. -/
theorem C79_accepts_exactly (lim : Nat) (d : Bytes) (r : ClassInfo) :
    unpackClass lim (.bytes d) = .ok r ↔
      ∃ (c : RawClass) (rest : Bytes), c.Fits lim ∧ d = c.enc ++ rest ∧ r = c.object lim := by
  constructor
  · intro h
    obtain ⟨bs, rest, rfl, c, hf, rfl, rfl⟩ := (sound_rawClass lim).run h
    exact ⟨c, rest, hf, rfl, rfl⟩
  · rintro ⟨c, rest, hf, rfl, rfl⟩
    exact (Decodes.rawClass c lim hf).run rest

/-- C79 for streams. -/
theorem C79_accepts_exactly_stream (lim : Nat) (d : Bytes) (r : ClassInfo) :
    unpackClass lim (.stream d) = .ok r ↔
      ∃ (c : RawClass) (rest : Bytes), c.Fits lim ∧ d = c.enc ++ rest ∧ r = c.object lim := by
  rw [← C79_accepts_exactly]
  unfold unpackClass
  rw [C01_bytes_stream_agree]

/-- C79, in particular: a byte string that does not start with a class file is refused with an
exception. -/
theorem C79_refused (lim : Nat) (d : Bytes)
    (h : ¬ ∃ (c : RawClass) (rest : Bytes), c.Fits lim ∧ d = c.enc ++ rest) :
    ∃ e, unpackClass lim (.bytes d) = .error e := by
  cases hr : unpackClass lim (.bytes d) with
  | error e => exact ⟨e, rfl⟩
  | ok r =>
    obtain ⟨c, rest, h1, h2, _⟩ := (C79_accepts_exactly lim d r).1 hr
    exact absurd ⟨c, rest, h1, h2⟩ h

/-- Accepted: a pool with two slots whose last entry is a long that needs one more, an attribute,
and data after the end. -/
example :
    unpackClass 5 (.bytes ([0xCA, 0xFE, 0xBA, 0xBE, 0, 0, 0, 50, 0, 3, 1, 0, 1, 0x41,
      5, 0, 0, 0, 0, 0, 0, 0, 9, 0, 0, 0, 0, 0, 0, 0, 0, 0, 0, 0, 0, 0, 1, 0, 1, 0, 0, 0, 1, 7]
      ++ [1, 2, 3])) =
      .ok ⟨(50, 0), [none, some (.utf8 ['A']), some (.long 9)], 0, 0, 0, [], [], [],
        [(.str ['A'], [7])]⟩ ∧
    (RawClass.mk 0 50 3 [.text [0x41], .other (.long 9)] 0 0 0 [] [] [] [⟨1, [7]⟩]).enc =
      [0xCA, 0xFE, 0xBA, 0xBE, 0, 0, 0, 50, 0, 3, 1, 0, 1, 0x41,
      5, 0, 0, 0, 0, 0, 0, 0, 9, 0, 0, 0, 0, 0, 0, 0, 0, 0, 0, 0, 0, 0, 1, 0, 1, 0, 0, 0, 1, 7] := by
  refine ⟨?_, ?_⟩ <;> decide +kernel

end Javatools
