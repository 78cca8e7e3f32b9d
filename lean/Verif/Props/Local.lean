import Verif.Props.Agree
import Verif.Props.Entries

/-!
# C126: an entry is about its recipient only
-/

namespace Verif

open Spec

theorem encryptCek_local {P : Prims} {S : Bytes → Prop} {a b : Bytes} (h : Agree P S a b) {r : RecRand} {m m' : Message}
    (ha : m.jwm.alg = m'.jwm.alg) {dest : Str} {c : Bytes} {key : Option Bytes}
    (hS : ∀ pk, KeyFor P dest key pk → S (pk.take 32)) : encryptCek P r m a dest c key = encryptCek P r m' b dest c key := by
  rw [encryptCek_agree h hS]
  unfold encryptCek
  rw [ha]

/-- C126.  The entry that an envelope has for a recipient is made of the name of the algorithm, of the DID and the key of that
recipient, of the secrets that the private key of the sender and the ephemeral key have with it and of the random choices for
that recipient.  Nothing of the message and of the other recipients goes in: in two envelopes, be their messages, the other
recipients and their keys, all headers, the iv and the map orders as they may, and be the position in the list another, the
entries for one recipient are the same if these are. -/
theorem C126_entry (P : Prims) (r r' : Message.SealRand) (m m' : Message) (a b : Bytes)
    (keys keys' : Option (List (Option Bytes))) (t t' : Str) (hm : m.jwm.WF) (hm' : m'.jwm.WF)
    (hs : m.sealJwe P r a keys = .ok t) (hs' : m'.sealJwe P r' b keys' = .ok t') (halg : m.jwm.alg = m'.jwm.alg)
    (i i' : Nat) (dest : Str) (hi : m.didcomm.to[i]? = some dest) (hi' : m'.didcomm.to[i']? = some dest)
    (hk : keyAt keys i = keyAt keys' i') (hr : r.perRec i = r'.perRec i')
    (hab : ∀ pk, KeyFor P dest (keyAt keys i) pk → P.x25519 a (pk.take 32) = P.x25519 b (pk.take 32)) :
    ∃ j j' rs rs' e, Jwe.ofText P.f64 t = some j ∧ Jwe.ofText P.f64 t' = some j' ∧
      j.recipients.getD j.recipient.toList = rs ∧ j'.recipients.getD j'.recipient.toList = rs' ∧
      rs.length = m.didcomm.to.length ∧ rs'.length = m'.didcomm.to.length ∧ rs[i]? = some e ∧ rs'[i']? = some e := by
  obtain ⟨pks, rs, g, c, tag, alg, hp, hpl, hka, hto, hfl, hrs, hlen, hal, hof, henc, htl, rfl⟩ := seal_ok hs
  obtain ⟨pks', rs', g', c', tag', alg', hp', hpl', hka', hto', hfl', hrs', hlen', hal', hof', henc', htl', rfl⟩ := seal_ok hs'
  have hrd : ∀ {j : Jwe} {l : List Recipient}, Message.recipientsOf j = some l → j.recipients.getD j.recipient.toList = l := by
    intro j l h
    unfold Message.recipientsOf at h
    cases h1 : j.recipients with
    | some l' => rw [h1] at h; exact Option.some.inj h
    | none =>
      rw [h1] at h
      cases h2 : j.recipient with
      | none => rw [h2] at h; cases h
      | some e => rw [h2] at h; exact Option.some.inj h
  have hil : i < rs.length := by rw [hlen]; exact (List.getElem?_eq_some_iff.1 hi).1
  have hil' : i' < rs'.length := by rw [hlen']; exact (List.getElem?_eq_some_iff.1 hi').1
  obtain ⟨d, k, h1, h2⟩ := (sealRecipients_ok hrs).2 i _ (List.getElem?_eq_getElem hil)
  obtain ⟨d', k', h1', h2'⟩ := (sealRecipients_ok hrs').2 i' _ (List.getElem?_eq_getElem hil')
  obtain ⟨hd, hk1⟩ := zip_get h1
  obtain ⟨hd', hk1'⟩ := zip_get h1'
  obtain rfl := Option.some.inj (hi.symm.trans hd)
  obtain rfl := Option.some.inj (hi'.symm.trans hd')
  obtain rfl := sealKeys_get hp hk1
  obtain rfl := sealKeys_get hp' hk1'
  rw [zero_add, hr, hk] at h2
  rw [zero_add] at h2'
  rw [encryptCek_local (S := fun k => ∃ pk, KeyFor P dest (keyAt keys i) pk ∧ k = pk.take 32)
    ⟨hka, hka', by rintro _ ⟨pk, h, rfl⟩; exact hab pk h⟩ halg fun pk h => ⟨pk, by rwa [hk], rfl⟩, h2'] at h2
  refine ⟨_, _, rs, rs', rs[i], jwe_ofText_text (F := P.f64) _ (envelope_wf hm (sealRecipients_wf hrs)),
    jwe_ofText_text (F := P.f64) _ (envelope_wf hm' (sealRecipients_wf hrs')), hrd (envelope_recipients hfl),
    hrd (envelope_recipients hfl'), hlen, hlen', List.getElem?_eq_getElem hil, ?_⟩
  rw [List.getElem?_eq_getElem hil', Res.ok.inj h2]

/-! ## Examples -/

/-- The second recipient of a message, alone and with another message. -/
def secondMessage : Message :=
  { exampleMessage with
    body := .str c!"other", didcomm := { exampleMessage.didcomm with «to» := exampleMessage.didcomm.to.drop 1 } }

/-- Two envelopes that have the same entry, at different positions. -/
example : ∃ (t t' : Str) (j j' : Jwe) (rs rs' : List Recipient) (e : Recipient), t ≠ t' ∧
    exampleMessage.sealJwe (toy fun _ => none) exampleRand (exampleKey 3) (some [
      some ((toy fun _ => none).x25519Pub (exampleKey 1)), some ((toy fun _ => none).x25519Pub (exampleKey 2))]) = .ok t ∧
    secondMessage.sealJwe (toy fun _ => none) exampleRand (exampleKey 3)
      (some [some ((toy fun _ => none).x25519Pub (exampleKey 2))]) = .ok t' ∧
    Jwe.ofText (toy fun _ => none).f64 t = some j ∧ Jwe.ofText (toy fun _ => none).f64 t' = some j' ∧
    j.recipients.getD j.recipient.toList = rs ∧ j'.recipients.getD j'.recipient.toList = rs' ∧
    rs.length = 2 ∧ rs'.length = 1 ∧ rs[1]? = some e ∧ rs'[0]? = some e := by
  have hl := toy_laws fun _ => none
  obtain ⟨t, ht⟩ := C16_seal_total (toy fun _ => none) hl (toy_total _) exampleRand exampleMessage
    (exampleKey 3) (some [some ((toy fun _ => none).x25519Pub (exampleKey 1)),
        some ((toy fun _ => none).x25519Pub (exampleKey 2))]) c!"ECDH-1PU+XC20PKW" (by decide) (by decide)
    (by intro l hl; rw [← Option.some.inj hl]; rfl) (by intro h; cases h) rfl (by decide) (by
      intro i dest hi
      match i with
      | 0 => exact ⟨_, hl.pub_len _, .inl rfl⟩
      | 1 => exact ⟨_, hl.pub_len _, .inl rfl⟩
      | n + 2 => cases hi)
  obtain ⟨t', ht'⟩ := C16_seal_total (toy fun _ => none) hl (toy_total _) exampleRand secondMessage
    (exampleKey 3) (some [some ((toy fun _ => none).x25519Pub (exampleKey 2))]) c!"ECDH-1PU+XC20PKW" (by decide) (by decide)
    (by intro l hl; rw [← Option.some.inj hl]; rfl) (by intro h; cases h) rfl (by decide) (by
      intro i dest hi
      match i with
      | 0 => exact ⟨_, hl.pub_len _, .inl rfl⟩
      | n + 1 => cases hi)
  obtain ⟨j, j', rs, rs', e, h1, h2, h3, h4, h5, h6, h7, h8⟩ := C126_entry (toy fun _ => none) exampleRand exampleRand
    exampleMessage secondMessage (exampleKey 3) (exampleKey 3) _ _ t t' (exampleMessage_wf fun _ => none).jwm
    (exampleMessage_wf fun _ => none).jwm
    ht ht' rfl 1 0 _ rfl rfl rfl rfl fun _ _ => rfl
  refine ⟨t, t', j, j', rs, rs', e, ?_, ht, ht', h1, h2, h3, h4, h5, h6, h7, h8⟩
  rintro rfl
  obtain rfl := Option.some.inj (h1.symm.trans h2)
  rw [← h3, h4, h6] at h5
  cases h5

end Verif
