import Verif.Props.DidKey
import Verif.Model.Attachment

/-!
# The tests of the crate

The tests in `/repo/tests` and in the test modules of `/repo/src`, run on the model.  Like the published vectors these
are tests of the model, not theorems about it: what the authors of the crate assert of the code is compared with what
the model computes.  Identifiers, keys and nonces that the tests choose at random are fixed here.  Tests that are
instances of theorems are beside these (`Verif.Props.DidKey`).
-/

namespace Verif.CrateTests

open Spec

/-- The algorithms as modelled, DIDs of the method `key`. -/
def prims : Prims := ((toy fun _ => none).signed fun _ _ => 5).didKey.std

/-- The beginning of most tests. -/
def start : Message := ((Message.new c!"2fd5a47d-a4e5-4d0c-b5b4-b02b1a0d3b3a").setFrom aliceDid).addTo [bobDid]

/-- A member of a document read with `serde_json::from_str::<Value>`. -/
def member (k : Str) (t : Str) : Option Json := (Message.valueOfText prims.f64 t).bind (Message.valueGet k)

/-- `decode` and `from_utf8` of a string member. -/
def textOf : Option Json → Option Str
  | some (.str s) => (b64Decode s).bind utf8Decode
  | _ => none

def get {α : Type} : Res α → Option α
  | .ok a => some a
  | _ => none

/-! ## `tests/message_type.rs` -/

/-- `sets_message_type_correctly_for_plain_messages`. -/
example : member c!"typ" (start.text HOrd.id) = some (.str c!"application/didcomm-plain+json") := by decide +kernel

/-- `serializes_missing_body_as_empty_object`. -/
example : (member c!"body" (start.text HOrd.id)).map printJson = some c!"{}" := by decide +kernel

/-- `serializes_existing_body_as_object`. -/
example : (get (start.setBody prims c!"{\"foo\":\"bar\"}")).bind (fun m => (member c!"body" (m.text HOrd.id)).map printJson) =
    some c!"{\"foo\":\"bar\"}" := by decide +kernel

/-- A flattened and a general signed message, with a stand-in for the signature. -/
def flatJws : Option Str :=
  get (((start.setKid c!"00").asFlatJws .edDsa).sign HOrd.id (SignAlg.edDsa.signer (toy fun _ => none)) (exampleKey 3))
def generalJws : Option Str :=
  get (((start.setKid c!"00").asJws .edDsa).sign HOrd.id (SignAlg.edDsa.signer (toy fun _ => none)) (exampleKey 3))

/-- `sets_message_type_correctly_for_signed_messages`, `can_create_flattened_jws_json`. -/
example : (flatJws.map fun t =>
    ((textOf (member c!"protected" t)).bind (member c!"typ"), (member c!"signature" t).isSome, member c!"signatures" t)) =
    some (some (.str c!"application/didcomm-signed+json"), true, none) := by decide +kernel

/-- `keeps_inner_message_type_as_plain_for_signed_messages`, `can_create_general_jws_json`. -/
example : (generalJws.map fun t =>
    (match member c!"signatures" t with
      | some (.arr [.obj es]) => (textOf (lookupEntry c!"protected" es)).bind (member c!"typ")
      | _ => none,
      (textOf (member c!"payload" t)).bind (member c!"typ"), member c!"signature" t)) =
    some (some (.str c!"application/didcomm-signed+json"), some (.str c!"application/didcomm-plain+json"), none) := by
  decide +kernel

/-- `can_receive_flattened_jws_json` and `can_receive_general_jws_json`, for every key pair, identifier and nonce. -/
example (P : Prims) (nonce : Bytes → Bytes → Nat) (sk : Bytes) (hsk : sk.length = 32) (id : Str) (flat : Bool) :
    ∃ t, (({ ((Message.new id).setFrom aliceDid).addTo [bobDid] with flatJws := flat }.setKid (hexEncode (edPublic sk))).asJws
        .edDsa).sign HOrd.id (SignAlg.edDsa.signer (P.signed nonce)) (sk ++ edPublic sk) = .ok t ∧
      (∃ m, Message.verify (P.signed nonce) HOrd.id (utf8 t) (edPublic sk) = .ok m) ∧
      ∃ m, Message.receive (P.signed nonce) HOrd.id t (some []) (some (edPublic sk)) none = .ok m ∧ m.jwm.typ = .raw := by
  obtain ⟨t, h1, h2, h3⟩ := C104_sign_verify P nonce sk hsk
    ({ ((Message.new id).setFrom aliceDid).addTo [bobDid] with flatJws := flat }.setKid (hexEncode (edPublic sk)))
    ⟨⟨(by intro k h; cases h), (by intro k h; cases h)⟩, show Avoids HMap.empty reservedKeys by decide,
      show [bobDid] ≠ [] from List.cons_ne_nil _ _, (by intro r h; cases h),
      show Canon P.f64 (.obj []) from ⟨trivial, trivial⟩, show NumsOk (.obj []) from trivial, show (Json.obj []).depth ≤ 126 by decide⟩
    ⟨(by intro k h; cases h), (by intro k h; cases h)⟩ HOrd.id
  exact ⟨t, h1, ⟨_, h2 _⟩, _, h3 HOrd.id (some []) (some (edPublic sk)) none (.inr ⟨rfl, rfl⟩), rfl⟩

/-! ## `tests/jwe_envelopes.rs` -/

/-- The envelope of `can_create_flat_jwe_json`, with stand-ins for the algorithms. -/
def flatJwe : Option Str :=
  get (((start.asFlatJwe (toy fun _ => none) .xc20p (some (exampleKey 1))).setKid c!"00").sealSigned (toy fun _ => none)
    exampleRand HOrd.id (exampleKey 3) (some [some (exampleKey 1)]) .edDsa (exampleKey 3))

def isStr : Option Json → Bool
  | some (.str _) => true
  | _ => false

def isObj : Option Json → Bool
  | some (.obj _) => true
  | _ => false

/-- `can_create_flat_jwe_json`, `sets_message_type_correctly_for_signed_and_encrypted_messages`. -/
example : (flatJwe.map fun t => (member c!"recipients" t, isStr (member c!"encrypted_key" t), isObj (member c!"header" t),
    (textOf (member c!"protected" t)).bind (member c!"typ"))) =
    some (none, true, true, some (.str c!"application/didcomm-encrypted+json")) := by decide +kernel

/-! ## `tests/out_of_band.rs` -/

/-- `sets_m_type_correctly_for_out_of_band_invitation_message`. -/
example : (get ((Message.new c!"id").asOutOfBandInvitation prims (utf8 c!"{}") none)).bind
    (fun m => member c!"type" (m.text HOrd.id)) = some (.str c!"https://didcomm.org/out-of-band/2.0/invitation") := by
  decide +kernel

/-! ## `src/messages/message.rs:646-690` -/

/-- `iv_from_json_test`. -/
example : Message.getIv prims (utf8 c!" { \"protected\": \"eyJ0eXAiOiJKV00iLCJlbmMiOiJBMjU2R0NNIiwia2lkIjoiUEdvWHpzME5XYVJfbWVLZ1RaTGJFdURvU1ZUYUZ1eXJiV0k3VjlkcGpDZyIsImFsZyI6IkVDREgtRVMrQTI1NktXIiwiZXBrIjp7Imt0eSI6IkVDIiwiY3J2IjoiUC0yNTYiLCJ4IjoiLU5oN1NoUkJfeGFDQlpSZElpVkN1bDNTb1IwWXc0VEdFUXFxR2lqMXZKcyIsInkiOiI5dEx4ODFQTWZRa3JPdzh5dUkyWXdJMG83TXROemFDR2ZDQmJaQlc1WXJNIn19\",\n                \"recipients\": [\n                  {\n                    \"encrypted_key\": \"J1Fs9JaDjOT_5481ORQWfEZmHy7OjE3pTNKccnK7hlqjxbPalQWWLg\"\n                  }\n                ],\n                \"iv\": \"u5kIzo0m_d2PjI4mu5kIzo0m\",\n                \"ciphertext\": \"qGuFFoHy7HBmkf2BaY6eREwzEjn6O_FnRoXj2H-DAXo1PgQdfON-_1QbxtnT8e8z_M6Gown7s8fLtYNmIHAuixqFQnSA4fdMcMSi02z1MYEn2JC-1EkVbWr4TqQgFP1EyymB6XjCWDiwTYd2xpKoUshu8WW601HLSgFIRUG3-cK_ZSdFaoWosIgAH5EQ2ayJkRB_7dXuo9Bi1MK6TYGZKezc6rpCK_VRSnLXhFwa1C3T0QBes\",\n                \"tag\": \"doeAoagwJe9BwKayfcduiw\"\n            }") =
    .ok (utf8 c!"u5kIzo0m_d2PjI4mu5kIzo0m") := by decide +kernel

/-- `iv_from_compact_json_test`. -/
example : Message.getIv prims (utf8 c!"eyJ0eXAiOiJKV00iLCJlbmMiOiJBMjU2R0NNIiwia2lkIjoiUEdvWHpzME5XYVJfbWVLZ1RaTGJFdURvU1ZUYUZ1eXJiV0k3VjlkcGpDZyIsImFsZyI6IkVDREgtRVMrQTI1NktXIiwiaXYiOiAidTVrSXpvMG1fZDJQakk0bXU1a0l6bzBtIn0.") =
    .ok (utf8 c!"u5kIzo0m_d2PjI4mu5kIzo0m") := by decide +kernel

/-! ## `src/messages/headers/decorators.rs:109-170` -/

/-- `default_thread_can_be_created`, and the four properties that quickcheck tries. -/
example (id sender : Str) : Thread.dflt.thid = Thread.dflt.pthid ∧ Thread.dflt.senderOrder = none ∧
    Thread.dflt.receivedOrders = none ∧ Thread.dflt.goalCode = none ∧ (Thread.implicit id).thid = id ∧
    (Thread.effectiveImplicitReply id sender).thid = id ∧ (Thread.implicitReply id).isImplicitReply id = false ∧
    { Thread.implicitReply id with receivedOrders := some (HMap.ofList [(c!"test", 1)]) }.isImplicitReply id = false := by
  refine ⟨rfl, rfl, rfl, rfl, rfl, rfl, ?_, ?_⟩ <;> simp [Thread.isImplicitReply, Thread.implicitReply, Thread.dflt]

/-! ## `src/messages/attachment.rs:320-365` -/

/-- The unit struct `Data` of the tests, which serializes to `null`. -/
def decData : Json → Option Unit
  | .null => some ()
  | _ => none

/-- `deserialize_json_formatteed_attachments_successfully`, `cannot_deserialize_attachments_with_invalid_format`. -/
example (now : Str) :
    ((Message.new c!"id").appendAttachment (AttachmentBuilder.ofValue c!"application/json" .null) now).deserializeAttachments
      decData c!"application/json" = .ok [()] ∧
    ((Message.new c!"id").appendAttachment (AttachmentBuilder.ofValue c!"application/json" .null) now).deserializeAttachments
      decData c!"application/yaml" = .err (.attachment "unsupported media type") := by
  refine ⟨?_, ?_⟩ <;> rfl

/-! ## `src/crypto/encryptor.rs:143-200` -/

/-- `xc20p_test` and `a256gcm_test`. -/
example : ∀ a ∈ [CryptoAlg.xc20p, .a256gcm], (get ((Message.new c!"id").asJwe prims a none |>.setBody prims
      c!"{\"test\":\"message's body - can be anything...\"}")).bind (fun m =>
    (get (m.encrypt HOrd.id exampleRand.iv (a.encryptor prims) (utf8 c!"super duper key 32 bytes long!!!"))).bind fun t =>
      (get (Message.decrypt prims HOrd.id (utf8 t) (a.decrypter prims) (utf8 c!"super duper key 32 bytes long!!!"))).map fun s =>
        (decide (s.jwm = m.jwm), get s.getBody, (Jwe.ofText prims.f64 t).map (·.tag.isSome))) =
    some (true, some c!"{\"test\":\"message's body - can be anything...\"}", some true) := by
  decide +kernel

/-! ## `tests/send_receive.rs` -/

/-- `TEST_DID_ENCRYPT_1` (`tests/common.rs:113-151`). -/
def didDocument : Str := c!"{\n        \"@context\": \"https://www.w3.org/ns/did/v1\",\n        \"id\": \"did:jun:ErJ3ahRB-zmOvTp0QmcJQfLq3hCAHBpXmoYLeHK8fHhw\",\n        \"verificationMethod\": [\n            {\n                \"id\": \"#DDMt6ythjG9pyuKcyFYHPC62gw6KjL8EdouCuNRm0GbU\",\n                \"type\": \"Ed25519VerificationKey2018\",\n                \"controller\": \"did:jun:ErJ3ahRB-zmOvTp0QmcJQfLq3hCAHBpXmoYLeHK8fHhw\",\n                \"publicKeyBase64\": \"DMt6ythjG9pyuKcyFYHPC62gw6KjL8EdouCuNRm0GbU=\"\n            },\n            {\n                \"id\": \"#CpPUgqlFBYtyXuCe6t8tXqeKo_wisONT9OzX-tRWNuGA\",\n                \"type\": \"X25519KeyAgreementKey2019\",\n                \"controller\": \"did:jun:ErJ3ahRB-zmOvTp0QmcJQfLq3hCAHBpXmoYLeHK8fHhw\",\n                \"publicKeyBase64\": \"pPUgqlFBYtyXuCe6t8tXqeKo_wisONT9OzX-tRWNuGA=\"\n            }\n        ]\n    }"

/-- `send_receive_raw`. -/
example : (get ((((Message.new c!"id").setFrom c!"did:xyz:ulapcuhsatnpuhza930hpu34n_").addTo
      [c!"did::xyz:34r3cu403hnth03r49g03", c!"did:xyz:30489jnutnjqhiu0uh540u8hunoe"]).setBody prims didDocument)).map (fun m =>
    (decide (Message.receive prims HOrd.id (m.text HOrd.id) none none none = .ok m),
      (get (m.sealJwe prims exampleRand (utf8 c!"anuhcphus") none)).isSome)) = some (true, false) := by
  decide +kernel

/-- `receive_test` of `src/messages/message.rs:744-766`, with every step carried out. -/
example : ((get ((start.asJwe prims .xc20p none).sealJwe prims exampleRand aliceSecret none)).bind fun t =>
    (get (Message.receive prims HOrd.id t (some bobSecret) (some (Algo.x25519Pub aliceSecret)) none)).map (·.didcomm.from)) =
    some (some aliceDid) := by
  decide +kernel

end Verif.CrateTests
