import Verif.Props.Seal
import Verif.Spec.Forge
import Mathlib.Data.List.Forall2

/-!
# Envelopes made by their recipients

C117: what is sealed for recipients can be made by them.
-/

namespace Verif

open Spec

theorem forgeEntry_eq {P : Prims} (hP : Laws P) {r : RecRand} {m : Message} {alg dest : Str} {ssk rsk : Bytes}
    {key : Option Bytes} (hal : m.jwm.alg = some alg) (h1 : ssk.length = 32) (h2 : rsk.length = 32)
    (hk : KeyFor P dest key (P.x25519Pub rsk)) :
    encryptCek P r m ssk dest cek key = forgeEntry P r alg (P.x25519Pub ssk) dest rsk := by
  simp only [encryptCek, hal, Res.ofOpt_some, Res.bind_ok, sharedFor_ok hk r.epk_len (hP.pub_len _), generateKek,
    sharedFor_ok hk h1 (hP.pub_len _), hP.dh r.epk_len h2, hP.dh h1 h2, forgeEntry]
  rfl

theorem forgeEntries_eq {P : Prims} (hP : Laws P) {r : Nat → RecRand} {m : Message} {alg : Str} {ssk : Bytes}
    (hal : m.jwm.alg = some alg) (h1 : ssk.length = 32) :
    ∀ (dests : List Str) (rsks : List Bytes) (pks : List (Option Bytes)) (n : Nat),
      List.Forall₂ (fun (d : Str × Option Bytes) (rsk : Bytes) => rsk.length = 32 ∧ KeyFor P d.1 d.2 (P.x25519Pub rsk))
        (dests.zip pks) rsks → dests.length = pks.length →
      Message.sealRecipients P r m ssk cek n (dests.zip pks) =
        forgeEntries P r alg (P.x25519Pub ssk) n (dests.zip rsks)
  | [], _, _, n, _, _ => by simp [Message.sealRecipients, forgeEntries]
  | d :: ds, [], k :: ks, n, h, _ => by simp at h
  | d :: ds, rsk :: rs, k :: ks, n, h, hl => by
    simp only [List.zip_cons_cons, List.forall₂_cons] at h
    simp only [List.zip_cons_cons, Message.sealRecipients, forgeEntries, forgeEntry_eq hP hal h1 h.1.1 h.1.2,
      forgeEntries_eq hP hal h1 ds rs ks (n + 1) h.2 (by simpa using hl)]
  | d :: ds, _, [], n, _, hl => by simp at hl

/-- C117.  The holders of the private keys of all recipients make the same text, byte for byte, as the sender,
from the public key of the sender. -/
theorem C117_same_text (P : Prims) (hP : Laws P) (r : Message.SealRand) (m : Message) (ssk : Bytes) (rsks : List Bytes)
    (keys : Option (List (Option Bytes))) (alg : Str) (hal : m.jwm.alg = some alg)
    (hs : ssk.length = 32) (hto : m.didcomm.to ≠ [])
    (hkeys : ∀ l, keys = some l → l.length = m.didcomm.to.length)
    (hflat : m.flatJwe = true → m.didcomm.to.length = 1) (hl : rsks.length = m.didcomm.to.length)
    (hk : ∀ i dest rsk, m.didcomm.to[i]? = some dest → rsks[i]? = some rsk →
      rsk.length = 32 ∧ KeyFor P dest (keyAt keys i) (P.x25519Pub rsk)) :
    forge P r m (P.x25519Pub ssk) rsks = m.sealJwe P r ssk keys := by
  obtain ⟨pks, hp⟩ : ∃ pks, m.sealKeys keys = .ok pks := by
    cases keys with
    | none => exact ⟨_, rfl⟩
    | some l => exact ⟨l, by simp [Message.sealKeys, hkeys l rfl]⟩
  have hpl : pks.length = m.didcomm.to.length := by
    unfold Message.sealKeys at hp
    split at hp
    · split at hp
      · cases hp
      · rename_i h
        cases hp
        exact Classical.not_not.1 h
    · cases hp
      simp
  have hz : List.Forall₂ (fun (d : Str × Option Bytes) (rsk : Bytes) => rsk.length = 32 ∧ KeyFor P d.1 d.2 (P.x25519Pub rsk))
      (m.didcomm.to.zip pks) rsks := by
    rw [List.forall₂_iff_get]
    refine ⟨by simp [hpl, hl], fun i h1 h2 => ?_⟩
    have h3 : i < m.didcomm.to.length := hl ▸ h2
    have h := hk i m.didcomm.to[i] rsks[i] (List.getElem?_eq_getElem h3) (List.getElem?_eq_getElem h2)
    have hg := sealKeys_get hp (List.getElem?_eq_getElem (hpl ▸ h3 : i < pks.length))
    rw [← hg] at h
    simpa using h
  have he := forgeEntries_eq hP (r := r.perRec) hal hs m.didcomm.to rsks pks 0 hz hpl.symm
  have h0 : m.didcomm.to.length ≠ 0 := by simpa using hto
  have h1 : ¬(m.flatJwe = true ∧ m.didcomm.to.length > 1) := by
    rintro ⟨h, h'⟩
    rw [hflat h] at h'
    omega
  simp only [forge, Message.sealJwe, hs, ne_eq, not_true_eq_false, if_false, hp, Res.bind_ok, h0, h1, he, hal, Res.ofOpt_some,
    crypterOfHeader]

/-- C117.  So the holder of the private key of the only recipient can make, for every message and every sender of
whom they know the public key, an envelope that `receive` accepts as coming from that sender. -/
theorem C117_impersonate (P : Prims) (hP : Laws P) (ht : AeadTotal P) (r : Message.SealRand) (m : Message) (ssk rsk : Bytes)
    (dest frm alg : Str) (hm : m.WF P.f64) (hc : Avoids m.didcomm.other classKeys) (hf : HeaderFixed m.jwm)
    (hj : m.jwm.typ ≠ .jws) (hfrom : m.didcomm.from = some frm) (hto : m.didcomm.to = [dest])
    (hal : m.jwm.alg = some alg) (hsup : alg ∈ supportedAlgs) (hs : ssk.length = 32) (hr : rsk.length = 32) :
    ∃ t rs, forge P r m (P.x25519Pub ssk) [rsk] = .ok t ∧ ∀ (o : HOrd) (ek vk : Option Bytes),
      KeyFor P frm ek (P.x25519Pub ssk) → Message.receive P o t (some rsk) ek vk =
        .ok { m with recipients := some rs, flatJwe := false, flatJws := false } := by
  have hk : ∀ i d k, m.didcomm.to[i]? = some d → [rsk][i]? = some k →
      k.length = 32 ∧ KeyFor P d (keyAt (some [some (P.x25519Pub rsk)]) i) (P.x25519Pub k) := by
    intro i d k _ h
    match i with
    | 0 => cases h; exact ⟨hr, .inl rfl⟩
    | n + 1 => cases h
  have hkeys : ∀ l, some [some (P.x25519Pub rsk)] = some l → l.length = m.didcomm.to.length := by
    intro l h; cases h; rw [hto]; rfl
  have hflat : m.flatJwe = true → m.didcomm.to.length = 1 := fun _ => by rw [hto]; rfl
  rw [C117_same_text P hP r m ssk [rsk] (some [some (P.x25519Pub rsk)]) alg hal hs (by rw [hto]; simp) hkeys hflat
    (by rw [hto]; rfl) hk]
  obtain ⟨t, h⟩ := C16_seal_total P hP ht r m ssk (some [some (P.x25519Pub rsk)]) alg hs (by rw [hto]; simp) hkeys hflat hal hsup
    (fun i d hi => by
      rw [hto] at hi
      match i with
      | 0 => exact ⟨_, hP.pub_len _, .inl rfl⟩
      | n + 1 => cases hi)
  obtain ⟨j, rs, -, -, -, hx⟩ := C17_every_recipient P hP r m ssk _ t frm hm hc hf hj hfrom h
  exact ⟨t, rs, h, fun o ek vk he => hx 0 dest rsk ek vk o (by rw [hto]; rfl) hr (.inl rfl) he (by simp)⟩

/-! ## Examples -/

/-- C117: the two recipients of the example message make the envelope of its sender. -/
example : ∃ t, exampleMessage.sealJwe (toy fun _ => none) exampleRand (exampleKey 3)
      (some [some ((toy fun _ => none).x25519Pub (exampleKey 1)), some ((toy fun _ => none).x25519Pub (exampleKey 2))]) = .ok t ∧
    forge (toy fun _ => none) exampleRand exampleMessage ((toy fun _ => none).x25519Pub (exampleKey 3))
      [exampleKey 1, exampleKey 2] = .ok t := by
  obtain ⟨t, rs, h, -⟩ := exampleBoth
  refine ⟨t, h, ?_⟩
  rw [C117_same_text (toy fun _ => none) (toy_laws _) exampleRand exampleMessage (exampleKey 3) [exampleKey 1, exampleKey 2]
    (some [some ((toy fun _ => none).x25519Pub (exampleKey 1)), some ((toy fun _ => none).x25519Pub (exampleKey 2))])
    c!"ECDH-1PU+XC20PKW" rfl (by decide) (by decide) (by intro l h; cases h; rfl) (by intro h; cases h) rfl
    (by
      intro i d k _ h
      match i with
      | 0 => cases h; exact ⟨by decide, .inl rfl⟩
      | 1 => cases h; exact ⟨by decide, .inl rfl⟩
      | n + 2 => cases h), h]

/-- C117: a message that its sender never saw. -/
example : ∃ t rs, forge (toy fun _ => none) exampleRand
      { exampleMessage with didcomm := { exampleMessage.didcomm with «to» := [c!"did:a:b"] }, body := .str c!"I owe you" }
      ((toy fun _ => none).x25519Pub (exampleKey 3)) [exampleKey 1] = .ok t ∧ ∀ (o : HOrd) (ek vk : Option Bytes),
      KeyFor (toy fun _ => none) c!"did:e:f" ek ((toy fun _ => none).x25519Pub (exampleKey 3)) →
      Message.receive (toy fun _ => none) o t (some (exampleKey 1)) ek vk =
        .ok { exampleMessage with didcomm := { exampleMessage.didcomm with «to» := [c!"did:a:b"] }, body := .str c!"I owe you", recipients := some rs } := by
  have h := exampleMessage_wf (toy fun _ => none).f64
  exact C117_impersonate (toy fun _ => none) (toy_laws _) (toy_total _) exampleRand _ (exampleKey 3) (exampleKey 1) c!"did:a:b" c!"did:e:f"
    c!"ECDH-1PU+XC20PKW" ⟨h.jwm, h.other, by simp, h.recipients, trivial, trivial, by decide⟩ (by decide)
    ⟨(by intro k h; cases h), (by intro k h; cases h)⟩ (by decide) rfl rfl rfl (by decide) (by decide) (by decide)

end Verif
