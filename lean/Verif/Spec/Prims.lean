import Verif.Model.Crypto
import Verif.Model.HMap
import Verif.Spec.JsonText

/-!
# Laws of the third-party primitives

The theorems about sealing and receiving hold for every `Prims` that satisfies `Laws`; only
functional correctness is asked for, no security.  `toy` is an instance, so the laws are consistent.
-/

namespace Verif.Spec

open Verif

/-- Functional correctness of the primitives. -/
structure Laws (P : Prims) : Prop where
  /-- What XChaCha20-Poly1305 encrypts, it decrypts. -/
  xc_dec : ∀ {k n a m c}, P.xcEnc k n a m = some c → P.xcDec k n a c = some m
  /-- The ciphertext is 16 bytes longer. -/
  xc_len : ∀ {k n a m c}, P.xcEnc k n a m = some c → c.length = m.length + 16
  /-- What AES-256-GCM encrypts, it decrypts. -/
  gcm_dec : ∀ {k n a m c}, P.gcmEnc k n a m = some c → P.gcmDec k n a c = some m
  /-- The ciphertext is 16 bytes longer. -/
  gcm_len : ∀ {k n a m c}, P.gcmEnc k n a m = some c → c.length = m.length + 16
  /-- Diffie-Hellman: both sides compute the same secret. -/
  dh : ∀ {a b : Bytes}, a.length = 32 → b.length = 32 →
    P.x25519 a (P.x25519Pub b) = P.x25519 b (P.x25519Pub a)
  /-- Size of public keys. -/
  pub_len : ∀ a, (P.x25519Pub a).length = 32
  /-- Size of shared secrets. -/
  dh_len : ∀ a b, (P.x25519 a b).length = 32
  /-- Size of digests. -/
  sha_len : ∀ a, (P.sha256 a).length = 32
  /-- Printed floating point numbers are JSON number tokens. -/
  f64_tok : ∀ {t u}, P.f64 t = some u → NumTok u

/-- A key pair for signing: every signature made with `sk` is accepted under `pk`. -/
def SignPair (P : Prims) (a : SignAlg) (sk pk : Bytes) : Prop :=
  ∀ m, ∃ s, P.sign a sk m = some s ∧ P.verify a pk m s = some true

/-- `pk` is the key to be used for `did`: the explicit one, or without an explicit one the X25519 key
of the resolved document. -/
def KeyFor (P : Prims) (did : Str) (key : Option Bytes) (pk : Bytes) : Prop :=
  key = some pk ∨ key = none ∧ ∃ d, P.resolve did = some d ∧ d.keyFor c!"X25519" = some pk

/-! ## An instance -/

/-- Sum of bytes. -/
def toySum (b : Bytes) : UInt8 := b.foldl (· + ·) 0

/-- First 32 bytes, padded. -/
def toyPad (b : Bytes) : Bytes := (b ++ List.replicate 32 0).take 32

/-- Tag of the toy AEAD. -/
def toyTag (k n a m : Bytes) : Bytes :=
  [toySum k, toySum n, toySum a, toySum m] ++ List.replicate 12 0

/-- Toy encryption: the plaintext and a checksum. -/
def toyEnc (k n a m : Bytes) : Option Bytes := some (m ++ toyTag k n a m)

/-- Toy decryption. -/
def toyDec (k n a c : Bytes) : Option Bytes :=
  let m := c.take (c.length - 16)
  if 16 ≤ c.length ∧ c.drop (c.length - 16) = toyTag k n a m then some m else none

/-- A `Prims` satisfying the laws (with the given resolver), for non-vacuity examples. -/
def toy (resolve : Str → Option DidDoc) : Prims where
  x25519 a b := List.zipWith (· ^^^ ·) (toyPad a) (toyPad b)
  x25519Pub := toyPad
  xcEnc := toyEnc
  xcDec := toyDec
  gcmEnc := toyEnc
  gcmDec := toyDec
  cbcEnc _ _ m := m
  sha256 b := List.replicate 32 (toySum b)
  sign _ k m := some [toySum k, toySum m]
  verify _ k m s := some (s == [toySum k, toySum m])
  resolve := resolve
  f64 t := if t = c!"0.5" then some c!"0.5" else none

theorem toyPad_length (b : Bytes) : (toyPad b).length = 32 := by
  simp [toyPad]

theorem toyPad_idem (b : Bytes) : toyPad (toyPad b) = toyPad b := by
  have h := toyPad_length b
  show (toyPad b ++ List.replicate 32 0).take 32 = toyPad b
  generalize toyPad b = x at h
  rw [List.take_append_of_le_length (by omega), List.take_of_length_le (by omega)]

theorem toyTag_length (k n a m : Bytes) : (toyTag k n a m).length = 16 := by simp [toyTag]

theorem toy_dec_enc {k n a m c : Bytes} (h : toyEnc k n a m = some c) : toyDec k n a c = some m := by
  obtain rfl : m ++ toyTag k n a m = c := Option.some.inj h
  have hl := toyTag_length k n a m
  unfold toyDec
  simp only [List.length_append, hl]
  rw [Nat.add_sub_cancel, List.take_left, List.drop_left]
  simp

theorem toy_len {k n a m c : Bytes} (h : toyEnc k n a m = some c) : c.length = m.length + 16 := by
  obtain rfl : m ++ toyTag k n a m = c := Option.some.inj h
  simp [toyTag_length]

/-- The laws are satisfiable. -/
theorem toy_laws (resolve : Str → Option DidDoc) : Laws (toy resolve) where
  xc_dec := toy_dec_enc
  xc_len := toy_len
  gcm_dec := toy_dec_enc
  gcm_len := toy_len
  dh := by
    intro a b _ _
    show List.zipWith _ (toyPad a) (toyPad (toyPad b)) = List.zipWith _ (toyPad b) (toyPad (toyPad a))
    rw [toyPad_idem, toyPad_idem]
    exact List.zipWith_comm_of_comm (fun x y => UInt8.xor_comm x y)
  pub_len := toyPad_length
  dh_len a b := by
    show (List.zipWith _ (toyPad a) (toyPad b)).length = 32
    rw [List.length_zipWith, toyPad_length, toyPad_length]; rfl
  sha_len _ := by simp [toy]
  f64_tok := by
    intro t u h
    simp only [toy] at h
    split at h
    · obtain rfl : c!"0.5" = u := Option.some.inj h
      refine ⟨[], ['0'], c!".5", [], rfl, .inl rfl, .inl rfl, .inr ⟨c!"5", ⟨by decide, ?_⟩, rfl⟩,
        .inl rfl⟩
      intro c hc
      simp only [List.mem_singleton] at hc
      subst hc; decide
    · cases h

theorem toy_signPair (resolve : Str → Option DidDoc) (a : SignAlg) (k : Bytes) :
    SignPair (toy resolve) a k k := by
  intro m
  exact ⟨_, rfl, by simp [toy]⟩

end Verif.Spec
