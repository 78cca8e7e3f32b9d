import Verif.Lemma.Algo.X25519Weak
import Verif.Lemma.Algo.Poly1305
import Verif.Props.Agree
import Verif.Spec.Weak

/-!
# C132: the secrets of every public key, and C99 for all weak keys
-/

namespace Verif

open Spec

theorem ofDigits_eq (pk : Bytes) : Nat.ofDigits 256 (pk.map UInt8.toNat) = Algo.leNat pk := by
  induction pk with
  | nil => rfl
  | cons b bs ih =>
    rw [List.map_cons, Nat.ofDigits_cons, ih]
    simp [Algo.leNat]

theorem uCoord_cast (pk : Bytes) : ((Algo.uCoord pk : ℕ) : Algo.Fp) = ((keyNumber pk : ℕ) : Algo.Fp) := by
  rw [Algo.uCoord, keyNumber, ofDigits_eq, ZMod.natCast_mod]

theorem low_iff (pk : Bytes) : Algo.Low ((Algo.uCoord pk : ℕ) : Algo.Fp) ↔ WeakKey pk := by
  rw [uCoord_cast, WeakKey]
  have hn : keyNumber pk < 2 ^ 255 := Nat.mod_lt _ (by decide)
  generalize keyNumber pk = n at hn
  have hp : Algo.p25519 = 2 ^ 255 - 19 := rfl
  have e : ∀ c : Nat, (((n : ℕ) : Algo.Fp) = ((c : ℕ) : Algo.Fp) ↔ n % Algo.p25519 = c % Algo.p25519) :=
    fun c => ZMod.natCast_eq_natCast_iff' ..
  have e0 := e 0
  have e1 := e 1
  have e2 := e (Algo.p25519 - 1)
  rw [Nat.cast_zero] at e0
  rw [Nat.cast_one] at e1
  rw [Nat.cast_sub Algo.p_pos, CharP.cast_eq_zero Algo.Fp Algo.p25519, Nat.cast_one, zero_sub] at e2
  simp only [Algo.Low, e0, e1, e2, e, weakNumbers, List.mem_cons, List.not_mem_nil, or_false, hp, Algo.lowA, Algo.lowB]
  omega

theorem onCurve_iff (pk : Bytes) : IsSquare (Algo.rhs ((Algo.uCoord pk : ℕ) : Algo.Fp)) ↔ OnCurve pk := by
  rw [uCoord_cast, OnCurve, isSquare_iff_exists_sq, Algo.rhs]
  constructor
  · rintro ⟨y, hy⟩
    refine ⟨y, hy.symm.trans ?_⟩
    push_cast
    rfl
  · rintro ⟨y, hy⟩
    refine ⟨y, Eq.symm (Eq.trans hy ?_)⟩
    push_cast
    rfl

/-- C132.  The secret with a public key is zero exactly if the key is weak, whatever the private key. -/
theorem C132_zero (P : Prims) (sk pk : Bytes) : P.std.x25519 sk pk = List.replicate 32 0 ↔ WeakKey pk :=
  (Algo.x25519_cases sk sk pk).1.trans (low_iff pk)

/-- C132.  For the other public keys two private keys give the same secret only if they are the same up to the five bits that
are overwritten, or if they are opposite to each other modulo the order of the curve or of the twist. -/
theorem C132_secrets (P : Prims) (a b pk : Bytes) (hw : ¬ WeakKey pk) :
    P.std.x25519 a pk = P.std.x25519 b pk ↔ Algo.clamp a = Algo.clamp b ∨
      (OnCurve pk ∧ Algo.clamp a + Algo.clamp b = 8 * Algo.ell) ∨
      (¬ OnCurve pk ∧ Algo.clamp a + Algo.clamp b = 8 * Algo.ellT) := by
  refine (Algo.x25519_cases a b pk).2.trans ?_
  rw [low_iff, onCurve_iff]
  simp only [hw, false_or]

/-- C132.  The weak keys are those with which every private key gives the same secret. -/
theorem C132_constant (P : Prims) (pk : Bytes) : (∀ a b, P.std.x25519 a pk = P.std.x25519 b pk) ↔ WeakKey pk := by
  constructor
  · intro h
    by_contra hw
    have h1 := (C132_secrets P (List.replicate 32 0) (8 :: List.replicate 31 0) pk hw).1 (h _ _)
    revert h1
    rw [show Algo.clamp (List.replicate 32 0) = 2 ^ 254 by decide +kernel,
      show Algo.clamp (8 :: List.replicate 31 0) = 2 ^ 254 + 8 by decide +kernel]
    rintro (h | ⟨-, h⟩ | ⟨-, h⟩)
    · omega
    · revert h; decide +kernel
    · revert h; decide +kernel
  · intro hw a b
    rw [(C132_zero P a pk).2 hw, (C132_zero P b pk).2 hw]

theorem clamp_eq_iff (a b : Bytes) : Algo.clamp a = Algo.clamp b ↔
    ∀ i, 3 ≤ i → i < 254 → (Algo.leNat a).testBit i = (Algo.leNat b).testBit i := by
  have e : ∀ n i, (n % 2 ^ 254 / 8).testBit i = (decide (i + 3 < 254) && Nat.testBit n (i + 3)) := by
    intro n i
    rw [show 8 = 2 ^ 3 from rfl, Nat.testBit_div_two_pow, Nat.testBit_mod_two_pow]
  constructor
  · intro h i h1 h2
    obtain ⟨k, rfl⟩ := Nat.exists_eq_add_of_le' h1
    have h3 : Algo.leNat a % 2 ^ 254 / 8 = Algo.leNat b % 2 ^ 254 / 8 := by
      unfold Algo.clamp at h; omega
    have ea := e (Algo.leNat a) k
    have eb := e (Algo.leNat b) k
    rw [h3, eb] at ea
    simpa [h2] using ea.symm
  · intro h
    unfold Algo.clamp
    congr 2
    refine Nat.eq_of_testBit_eq fun i => ?_
    rw [e, e]
    by_cases hi : i + 3 < 254
    · rw [h (i + 3) (by omega) hi]
    · simp [hi]

/-- The number nine is on the curve. -/
theorem onCurve_nine : OnCurve (9 :: List.replicate 31 0) := by
  refine ⟨((Algo.baseY : ℕ) : ZMod (2 ^ 255 - 19)), ?_⟩
  rw [show keyNumber (9 :: List.replicate 31 0) = 9 by decide +kernel]
  have : ((Algo.baseY ^ 2 : ℕ) : Algo.Fp) = ((9 ^ 3 + 486662 * 9 ^ 2 + 9 : ℕ) : Algo.Fp) := by
    rw [ZMod.natCast_eq_natCast_iff']; decide +kernel
  push_cast at this ⊢
  exact this

/-- The number two is on the twist. -/
theorem not_onCurve_two : ¬ OnCurve (2 :: List.replicate 31 0) := by
  rw [← onCurve_iff, show Algo.uCoord (2 :: List.replicate 31 0) = 2 by decide +kernel, Algo.rhs_cast,
    Algo.isSquare_iff (Algo.cast_ne_zero (by decide +kernel)) rfl]
  decide +kernel

/-- C132.  Two private keys give the same secret with every public key exactly if they agree in the bits that are not
overwritten. -/
theorem C132_interchangeable (P : Prims) (a b : Bytes) : (∀ pk, P.std.x25519 a pk = P.std.x25519 b pk) ↔
    ∀ i, 3 ≤ i → i < 254 → (Algo.leNat a).testBit i = (Algo.leNat b).testBit i := by
  rw [← clamp_eq_iff]
  constructor
  · intro h
    have h9 := (C132_secrets P a b (9 :: List.replicate 31 0) (by decide +kernel)).1 (h _)
    have h2 := (C132_secrets P a b (2 :: List.replicate 31 0) (by decide +kernel)).1 (h _)
    rcases h9 with h | ⟨-, h9⟩ | ⟨h, -⟩
    · exact h
    · rcases h2 with h | ⟨h, -⟩ | ⟨-, h2⟩
      · exact h
      · exact absurd h not_onCurve_two
      · rw [h9] at h2
        exact absurd h2 (by decide +kernel)
    · exact absurd onCurve_nine h
  · intro h pk
    show Algo.x25519 a pk = Algo.x25519 b pk
    unfold Algo.x25519
    rw [h]

theorem leBytes_leNat (pk : Bytes) : Algo.leBytes pk.length (Algo.leNat pk) = pk := by
  induction pk with
  | nil => rfl
  | cons b bs ih =>
    have hb := b.toNat_lt
    simp only [List.length_cons, Algo.leBytes, Algo.leNat]
    rw [show (b.toNat + 256 * Algo.leNat bs) / 256 = Algo.leNat bs by omega, ih]
    congr 1
    apply UInt8.toNat_inj.1
    simp

/-- C132.  The weak keys of 32 bytes are fourteen. -/
theorem C132_fourteen : weakKeys.length = 14 ∧ weakKeys.Nodup ∧ ∀ pk, pk ∈ weakKeys ↔ pk.length = 32 ∧ WeakKey pk := by
  refine ⟨by decide, by decide +kernel, fun pk => ⟨fun h => ?_, fun ⟨hl, hw⟩ => ?_⟩⟩
  · have : ∀ pk ∈ weakKeys, pk.length = 32 ∧ WeakKey pk := by decide +kernel
    exact this pk h
  · have hb : Algo.leNat pk < 2 ^ 256 := by
      have := Algo.leNat_lt_pow pk
      rw [hl] at this
      exact lt_of_lt_of_le this (by decide)
    have h1 : keyNumber pk = Algo.leNat pk % 2 ^ 255 := by rw [keyNumber, ofDigits_eq]
    rw [WeakKey, h1] at hw
    rw [← leBytes_leNat pk, hl, weakKeys]
    refine List.mem_map_of_mem ?_
    rw [List.mem_append, List.mem_map]
    by_cases hlt : Algo.leNat pk < 2 ^ 255
    · left
      rwa [Nat.mod_eq_of_lt hlt] at hw
    · right
      exact ⟨_, hw, by omega⟩

/-- C132.  What is sealed for weak keys does not depend on the private key of the sender: everyone can make it. -/
theorem C132_seal (P : Prims) (a b : Bytes) (ha : a.length = 32) (hb : b.length = 32) (r : Message.SealRand) (m : Message)
    (keys : Option (List (Option Bytes))) (h : ∀ k, ToKey P.std m keys k → WeakKey k) :
    m.sealJwe P.std r a keys = m.sealJwe P.std r b keys :=
  C125_seal P.std a b r m keys ⟨ha, hb, fun pk hpk => (C132_constant P pk).2 (h pk hpk) a b⟩

/-- C132.  An envelope with weak ephemeral keys from a sender with a weak key is received alike with every private key:
everyone can read it. -/
theorem C132_receive (P : Prims) (a b : Bytes) (ha : a.length = 32) (hb : b.length = 32) (o : HOrd) (t : Str)
    (ek vk : Option Bytes) (h : ∀ k, EnvelopeKey P.std t ek k → WeakKey k) :
    Message.receive P.std o t (some a) ek vk = Message.receive P.std o t (some b) ek vk :=
  C125_receive P.std a b o t ek vk ⟨ha, hb, fun pk hpk => (C132_constant P pk).2 (h pk hpk) a b⟩

/-- C99, as written, is false of each of the fourteen weak keys: sealing for it succeeds, and the text does not depend on the
private key of the sender. -/
theorem C99_any_recipient_violated (P : Prims) (hf : ∀ {t u}, P.f64 t = some u → NumTok u) (k : Bytes) (hk : k ∈ weakKeys)
    (r : Message.SealRand) (m : Message) (alg : Str) (hto : m.didcomm.to ≠ [])
    (hflat : m.flatJwe = true → m.didcomm.to.length = 1) (hal : m.jwm.alg = some alg) (hs : alg ∈ Spec.supportedAlgs) :
    ∃ t, ∀ ssk, ssk.length = 32 →
      m.sealJwe P.std r ssk (some (List.replicate m.didcomm.to.length (some k))) = .ok t := by
  obtain ⟨hl, hw⟩ := (C132_fourteen.2.2 k).1 hk
  have hat : ∀ i, i < m.didcomm.to.length → keyAt (some (List.replicate m.didcomm.to.length (some k))) i = some k := by
    intro i hi
    simp [Spec.keyAt, hi]
  have h0 : zeroKey.length = 32 := by decide
  obtain ⟨t, ht⟩ := C16_seal_total P.std (std_laws P hf) (std_total P) r m zeroKey
    (some (List.replicate m.didcomm.to.length (some k))) alg h0 hto (by
      intro l hl
      rw [← Option.some.inj hl, List.length_replicate]) hflat hal hs (by
      intro i dest hi
      exact ⟨k, hl, .inl (hat i (List.getElem?_eq_some_iff.1 hi).1)⟩)
  refine ⟨t, fun ssk hsk => ?_⟩
  rw [← ht]
  refine C132_seal P ssk zeroKey hsk h0 r m _ ?_
  rintro _ ⟨i, dest, pk, hi, hkf, rfl⟩
  rw [hat i (List.getElem?_eq_some_iff.1 hi).1] at hkf
  rcases hkf with h | ⟨h, -⟩
  · obtain rfl := Option.some.inj h
    rwa [List.take_of_length_le (by omega)]
  · cases h

/-- C99.  What holds: with every key that is not one of the fourteen, no private key gives the zero secret, and some private
keys give different secrets. -/
theorem C99_others_partial (P : Prims) (k : Bytes) (hl : k.length = 32) (hk : k ∉ weakKeys) :
    (∀ sk, P.std.x25519 sk k ≠ zeroKey) ∧ ∃ a b, P.std.x25519 a k ≠ P.std.x25519 b k := by
  have hw : ¬ WeakKey k := fun h => hk ((C132_fourteen.2.2 k).2 ⟨hl, h⟩)
  refine ⟨fun sk h => hw ((C132_zero P sk k).1 h), ?_⟩
  by_contra hn
  push Not at hn
  exact hw ((C132_constant P k).1 hn)

/-! ## Examples -/

/-- A weak key other than zero, and the number minus one with the highest bit set. -/
example : (1 :: List.replicate 31 0) ∈ weakKeys ∧ (0xec :: List.replicate 31 0xff) ∈ weakKeys := by
  constructor <;> decide +kernel

/-- C99, C132: a message is sealed for the key that is the number one, by everyone alike. -/
example : ∃ t, ∀ ssk, ssk.length = 32 →
    weakMessage.sealJwe stdPrims exampleRand ssk (some [some (1 :: List.replicate 31 0)]) = .ok t :=
  C99_any_recipient_violated (toy fun _ => none) (toy_laws fun _ => none).f64_tok _ (by decide +kernel) exampleRand weakMessage
    c!"ECDH-1PU+XC20PKW" (by decide) (by intro h; cases h) rfl (by decide)

/-- C132: an envelope with weak keys only, which everyone can read. -/
example : ∃ s x, (∀ k, EnvelopeKey stdPrims s (some zeroKey) k → WeakKey k) ∧ ∀ sk : Bytes, sk.length = 32 →
    Message.receive stdPrims HOrd.id s (some sk) (some zeroKey) none = .ok x := by
  have hs : okAnd (fun s => okAnd (fun _ => true)
      (Message.receive stdPrims HOrd.id s (some (exampleKey 1)) (some zeroKey) none) &&
      match Jwe.ofText stdPrims.f64 s with
      | none => false
      | some j => (j.recipients.getD j.recipient.toList).all fun x => match x.header.epk with
          | none => false
          | some e => b64Decode e.x == some zeroKey) weakEnvelope = true := by decide +kernel
  have hz : WeakKey zeroKey := by decide +kernel
  cases hw : weakEnvelope with
  | err _ => rw [hw] at hs; cases hs
  | panic => rw [hw] at hs; cases hs
  | ok s =>
    rw [hw] at hs
    simp only [okAnd, Bool.and_eq_true] at hs
    obtain ⟨h1, h2⟩ := hs
    have hk : ∀ k, EnvelopeKey stdPrims s (some zeroKey) k → WeakKey k := by
      rintro k ⟨j, hj, ⟨skid, pk, -, hkf, rfl⟩ | ⟨y, hy, e, he, hb⟩⟩
      · rcases hkf with h | ⟨h, -⟩
        · rw [← Option.some.inj h]; exact hz
        · cases h
      · rw [hj] at h2
        have h3 := List.all_eq_true.1 h2 y hy
        rw [he] at h3
        have h4 := (eq_of_beq h3).symm.trans hb
        rw [← Option.some.inj h4]; exact hz
    cases hr : Message.receive stdPrims HOrd.id s (some (exampleKey 1)) (some zeroKey) none with
    | err _ => rw [hr] at h1; cases h1
    | panic => rw [hr] at h1; cases h1
    | ok x =>
      refine ⟨s, x, hk, fun sk hsk => ?_⟩
      rw [← hr]
      exact C132_receive (toy fun _ => none) sk (exampleKey 1) hsk (by decide) HOrd.id s (some zeroKey) none hk

/-- C132: with the number two, which is on the twist, two private keys that are opposite modulo its order give one secret. -/
example : ¬ WeakKey (2 :: List.replicate 31 0) ∧
    stdPrims.x25519 (Algo.leBytes 32 (2 ^ 255 - 8)) (2 :: List.replicate 31 0) =
      stdPrims.x25519 (Algo.leBytes 32 (8 * Algo.ellT - (2 ^ 255 - 8))) (2 :: List.replicate 31 0) ∧
    Algo.clamp (Algo.leBytes 32 (2 ^ 255 - 8)) ≠ Algo.clamp (Algo.leBytes 32 (8 * Algo.ellT - (2 ^ 255 - 8))) := by
  have hw : ¬ WeakKey (2 :: List.replicate 31 0) := by decide +kernel
  exact ⟨hw, (C132_secrets (toy fun _ => none) _ _ _ hw).2 (.inr (.inr ⟨not_onCurve_two, by decide +kernel⟩)), by decide +kernel⟩

end Verif
