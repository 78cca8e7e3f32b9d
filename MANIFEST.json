{
 "claims": [
  {
   "property": "C01",
   "status": "proved",
   "theorems": [
    "Verif.C01_base64_roundtrip"
   ],
   "note": ""
  },
  {
   "property": "C02",
   "status": "proved",
   "theorems": [
    "Verif.C02_base64_decode_canonical",
    "Verif.C02_base64_decode_exact",
    "Verif.C02_base64_decode_injective",
    "Verif.C02_base64_foreign_rejected",
    "Verif.C02_decode_iff"
   ],
   "note": ""
  },
  {
   "property": "C03",
   "status": "proved",
   "theorems": [
    "Verif.C03_json_print_is_document",
    "Verif.C03_json_parse_exact",
    "Verif.C03_json_roundtrip"
   ],
   "note": ""
  },
  {
   "property": "C04",
   "status": "proved",
   "theorems": [
    "Verif.C04_set_body",
    "Verif.C04_set_body_error",
    "Verif.C04_get_set",
    "Verif.C04_set_get_set"
   ],
   "note": ""
  },
  {
   "property": "C05",
   "status": "proved",
   "theorems": [
    "Verif.C05_plain_roundtrip"
   ],
   "note": ""
  },
  {
   "property": "C06",
   "status": "partial",
   "theorems": [
    "Verif.C06_received_iff",
    "Verif.C06_empty_to_violated",
    "Verif.C06_clashing_header_violated",
    "Verif.C06_deep_body_violated",
    "Verif.C06_iv_header_violated",
    "Verif.C06_plain_roundtrip_partial",
    "Verif.C06_written_iff"
   ],
   "note": "False of the code: four concrete violations are proved, and C06_received_iff states exactly which messages come back (for types other than signed and custom headers that do not change the classification)."
  },
  {
   "property": "C07",
   "status": "proved",
   "theorems": [
    "Verif.C07_reload",
    "Verif.C07_reload_received",
    "Verif.C07_reload_iff"
   ],
   "note": ""
  },
  {
   "property": "C08",
   "status": "proved",
   "theorems": [
    "Verif.C08_to_appends",
    "Verif.C08_to_sequence"
   ],
   "note": ""
  },
  {
   "property": "C09",
   "status": "proved",
   "theorems": [
    "Verif.C09_custom_headers"
   ],
   "note": ""
  },
  {
   "property": "C10",
   "status": "proved",
   "theorems": [
    "Verif.C10_reply_to"
   ],
   "note": ""
  },
  {
   "property": "C11",
   "status": "proved",
   "theorems": [
    "Verif.C11_with_parent"
   ],
   "note": ""
  },
  {
   "property": "C12",
   "status": "partial",
   "theorems": [
    "Verif.C12_uri_not_injective",
    "Verif.C12_uri_injective_partial",
    "Verif.C12_every_uri_violated",
    "Verif.C12_thread_or_parent_violated",
    "Verif.C12_uri_iff_partial"
   ],
   "note": "False of the code: for every message there is another with the same URI (C12_every_uri_violated), also with the same id (C12_thread_or_parent_violated). Proved: with ids of equal length, exactly which messages share a URI (C12_uri_iff_partial), and injectivity if the thread ids have equal length too."
  },
  {
   "property": "C13",
   "status": "proved",
   "theorems": [
    "Verif.C13_get_prior"
   ],
   "note": ""
  },
  {
   "property": "C14",
   "status": "proved",
   "theorems": [
    "Verif.C14_setters",
    "Verif.C14_setters_commute",
    "Verif.C14_last_call_wins"
   ],
   "note": ""
  },
  {
   "property": "C15",
   "status": "proved",
   "theorems": [
    "Verif.C15_key_size",
    "Verif.C15_key_count",
    "Verif.C15_no_recipient",
    "Verif.C15_flat_recipients",
    "Verif.C15_seal_ok",
    "Verif.C15_algorithm",
    "Verif.C15_missing_algorithm"
   ],
   "note": ""
  },
  {
   "property": "C16",
   "status": "proved",
   "theorems": [
    "Verif.C16_seal_receive",
    "Verif.C16_seal_total"
   ],
   "note": ""
  },
  {
   "property": "C17",
   "status": "proved",
   "theorems": [
    "Verif.C17_every_recipient"
   ],
   "note": ""
  },
  {
   "property": "C18",
   "status": "proved",
   "theorems": [
    "Verif.C18_seal_receive_resolved"
   ],
   "note": ""
  },
  {
   "property": "C19",
   "status": "proved",
   "theorems": [
    "Verif.C19_flat",
    "Verif.C19_general",
    "Verif.C19_setup"
   ],
   "note": ""
  },
  {
   "property": "C20",
   "status": "proved",
   "theorems": [
    "Verif.C20_accepted_iff",
    "Verif.C20_accepted_was_authenticated"
   ],
   "note": ""
  },
  {
   "property": "C21",
   "status": "proved",
   "theorems": [
    "Verif.C21_header_tampering",
    "Verif.C21_header_tampering_aead"
   ],
   "note": ""
  },
  {
   "property": "C22",
   "status": "partial",
   "theorems": [
    "Verif.C22_header_bytes_violated",
    "Verif.C22_header_values_partial",
    "Verif.C22_signed_header_bytes_violated"
   ],
   "note": "False of the code: for every sealed envelope and every flat JWS a variant with other header bytes is accepted alike; the header values are proved bound."
  },
  {
   "property": "C23",
   "status": "proved",
   "theorems": [
    "Verif.C23_protected_header",
    "Verif.C23_only_ciphertext_depends"
   ],
   "note": ""
  },
  {
   "property": "C24",
   "status": "proved",
   "theorems": [
    "Verif.C24_sign_verify",
    "Verif.C24_sign_verify_flat",
    "Verif.C24_sign_receive"
   ],
   "note": ""
  },
  {
   "property": "C25",
   "status": "proved",
   "theorems": [
    "Verif.C25_verified_is_signed",
    "Verif.C25_accepting_keys"
   ],
   "note": ""
  },
  {
   "property": "C26",
   "status": "proved",
   "theorems": [
    "Verif.C26_verify_iff",
    "Verif.C26_malformed_blocks"
   ],
   "note": ""
  },
  {
   "property": "C27",
   "status": "partial",
   "theorems": [
    "Verif.C27_no_recipients_violated",
    "Verif.C27_map_order_violated",
    "Verif.C27_signed_verifies_partial"
   ],
   "note": "False of the code: both violations are proved; verification is proved when there is a recipient and the header text does not depend on map order."
  },
  {
   "property": "C28",
   "status": "proved",
   "theorems": [
    "Verif.C28_seal_signed",
    "Verif.C28_total"
   ],
   "note": ""
  },
  {
   "property": "C29",
   "status": "partial",
   "theorems": [
    "Verif.C29_accepted_iff",
    "Verif.C29_carrier_without_alg",
    "Verif.C29_iv_header_violated",
    "Verif.C29_signed_input_partial",
    "Verif.C29_signed_input_exact_partial",
    "Verif.C29_every_input_partial"
   ],
   "note": "False of the code: an encrypted message of the signed type with a custom header `iv` is returned unverified; the exact remaining guarantee is proved, and C29_accepted_iff states exactly which signed texts are accepted."
  },
  {
   "property": "C30",
   "status": "proved",
   "theorems": [
    "Verif.C30_message_kid",
    "Verif.C30_jws_kid",
    "Verif.C30_kid_used",
    "Verif.C30_no_key"
   ],
   "note": ""
  },
  {
   "property": "C31",
   "status": "partial",
   "theorems": [
    "Verif.C31_any_sender_violated"
   ],
   "note": "False of the code: acceptance under a foreign `from` is proved for every content."
  },
  {
   "property": "C32",
   "status": "partial",
   "theorems": [
    "Verif.C32_universal_key_violated"
   ],
   "note": "False of the code: one constant key opens every sealed envelope."
  },
  {
   "property": "C33",
   "status": "partial",
   "theorems": [
    "Verif.C33_forgery_violated"
   ],
   "note": "False of the code: the forgery is proved for every observed envelope."
  },
  {
   "property": "C34",
   "status": "partial",
   "theorems": [
    "Verif.C34_panic_iff",
    "Verif.C34_no_panic_partial",
    "Verif.C34_ciphertext_panic_violated",
    "Verif.C34_iv_panic_violated",
    "Verif.C34_long_iv_panic_violated",
    "Verif.C34_entry_nonce_panic_violated"
   ],
   "note": "False of the code: four panics are proved, and C34_panic_iff states exactly which inputs make receive panic."
  },
  {
   "property": "C35",
   "status": "proved",
   "theorems": [
    "Verif.C35_objects",
    "Verif.C35_only_objects"
   ],
   "note": ""
  },
  {
   "property": "C36",
   "status": "proved",
   "theorems": [
    "Verif.C36_needs_key",
    "Verif.C36_other_input",
    "Verif.C36_plain_input",
    "Verif.C36_verification_key"
   ],
   "note": ""
  },
  {
   "property": "C37",
   "status": "proved",
   "theorems": [
    "Verif.C37_same_kek",
    "Verif.C37_kdf_fails_only_if_long"
   ],
   "note": ""
  },
  {
   "property": "C38",
   "status": "proved",
   "theorems": [
    "Verif.C38_layout",
    "Verif.C38_injective"
   ],
   "note": ""
  },
  {
   "property": "C39",
   "status": "proved",
   "theorems": [
    "Verif.C39_jwe_label",
    "Verif.C39_jws_label",
    "Verif.C39_cbc_never_sealed",
    "Verif.C39_sealed_label"
   ],
   "note": ""
  },
  {
   "property": "C40",
   "status": "proved",
   "theorems": [
    "Verif.C40_labels",
    "Verif.C40_labels_injective",
    "Verif.C40_names",
    "Verif.C40_problem_codes"
   ],
   "note": ""
  },
  {
   "property": "C41",
   "status": "proved",
   "theorems": [
    "Verif.C41_mediator_receives",
    "Verif.C41_recipient_receives",
    "Verif.C41_total"
   ],
   "note": ""
  },
  {
   "property": "C42",
   "status": "partial",
   "theorems": [
    "Verif.C42_shape_violated",
    "Verif.C42_forward_violated"
   ],
   "note": "False of the code: shape is proved to fail on every message."
  },
  {
   "property": "C43",
   "status": "partial",
   "theorems": [
    "Verif.C43_get_iv_violated",
    "Verif.C43_get_iv_partial",
    "Verif.C43_get_iv_compact_partial"
   ],
   "note": "False of the code: get_iv is proved to fail on every sealed envelope; the partial theorem gives its exact behaviour."
  },
  {
   "property": "C44",
   "status": "partial",
   "theorems": [
    "Verif.C44_exported_iv_violated",
    "Verif.C44_external_partial"
   ],
   "note": "False of the code: a run with different ivs is exhibited; the payload part is proved."
  },
  {
   "property": "C45",
   "status": "partial",
   "theorems": [
    "Verif.C45_anonymous_violated",
    "Verif.C45_anonymous_seal_succeeds",
    "Verif.C45_named_partial"
   ],
   "note": "False of the code: sealing succeeds and receiving always fails without `from`; with `from` the positive theorems apply."
  },
  {
   "property": "C46",
   "status": "proved",
   "theorems": [
    "Verif.C46_extract",
    "Verif.C46_malformed",
    "Verif.C46_prefix",
    "Verif.C46_idempotent"
   ],
   "note": ""
  },
  {
   "property": "C47",
   "status": "proved",
   "theorems": [
    "Verif.C47_from_code",
    "Verif.C47_bar_accepted",
    "Verif.C47_known_rejected"
   ],
   "note": ""
  },
  {
   "property": "C48",
   "status": "proved",
   "theorems": [
    "Verif.C48_builder_setters",
    "Verif.C48_data_setters",
    "Verif.C48_raw_payload",
    "Verif.C48_finalize",
    "Verif.C48_of_value",
    "Verif.C48_order",
    "Verif.C48_deserialize_iff",
    "Verif.C48_other_type",
    "Verif.C48_values_roundtrip"
   ],
   "note": ""
  },
  {
   "property": "C49",
   "status": "proved",
   "theorems": [
    "Verif.C49_jwe_getter",
    "Verif.C49_jws_getter",
    "Verif.C49_jwe_named",
    "Verif.C49_jws_named"
   ],
   "note": ""
  },
  {
   "property": "C50",
   "status": "proved",
   "theorems": [
    "Verif.C50_received_as_jwe",
    "Verif.C50_sealed"
   ],
   "note": ""
  },
  {
   "property": "C51",
   "status": "proved",
   "theorems": [
    "Verif.C51_invitation_iff",
    "Verif.C51_panic_iff"
   ],
   "note": ""
  },
  {
   "property": "C52",
   "status": "proved",
   "theorems": [
    "Verif.C52_is_implicit_reply",
    "Verif.C52_constructors"
   ],
   "note": ""
  },
  {
   "property": "C53",
   "status": "proved",
   "theorems": [
    "Verif.C53_jws_shape",
    "Verif.C53_setup"
   ],
   "note": ""
  },
  {
   "property": "C54",
   "status": "proved",
   "theorems": [
    "Verif.C54_hex_decode_exact",
    "Verif.C54_hex_roundtrip",
    "Verif.C54_hex_rejects"
   ],
   "note": ""
  },
  {
   "property": "C55",
   "status": "proved",
   "theorems": [
    "Verif.C55_short_nonce",
    "Verif.C55_decrypt_encrypt",
    "Verif.C55_gcm_nonce",
    "Verif.C55_panics"
   ],
   "note": ""
  },
  {
   "property": "C56",
   "status": "partial",
   "theorems": [
    "Verif.C56_forward_type_violated",
    "Verif.C56_forward_fields_partial"
   ],
   "note": "False of the code: the type stays JWM; the other fields are proved as documented."
  },
  {
   "property": "C57",
   "status": "partial",
   "theorems": [
    "Verif.C57_routed_iff",
    "Verif.C57_routed_no_panic_partial",
    "Verif.C57_no_recipient_panics_violated"
   ],
   "note": "False of the code: the panic is proved for every message without recipient; C57_routed_iff states exactly when routing succeeds and when it panics."
  },
  {
   "property": "C58",
   "status": "partial",
   "theorems": [
    "Verif.C58_media_type_violated",
    "Verif.C58_format_partial"
   ],
   "note": "False of the code: the attachment is proved to be left out for every other format; with format application/json it is proved to be returned."
  },
  {
   "property": "C59",
   "status": "partial",
   "theorems": [
    "Verif.C59_core_did_violated",
    "Verif.C59_lower_did_partial",
    "Verif.C59_exact_partial"
   ],
   "note": "False of the code: three valid DIDs are exhibited; proved exactly which DIDs are kept: those whose method name and whose parts but the last are lower case letters, the label of any other is empty."
  },
  {
   "property": "C60",
   "status": "partial",
   "theorems": [
    "Verif.C60_seal_iff",
    "Verif.C60_seal_signed_iff",
    "Verif.C60_seal_no_panic_partial",
    "Verif.C60_short_key_panics_violated",
    "Verif.C60_sign_no_panic_partial",
    "Verif.C60_seal_signed_no_panic_partial"
   ],
   "note": "False of the code: the panic is proved for every message whose first recipient key is too short; C60_seal_iff and C60_seal_signed_iff state exactly when sealing succeeds and when it panics."
  },
  {
   "property": "C61",
   "status": "partial",
   "theorems": [
    "Verif.C61_seal_cuts_keys_violated",
    "Verif.C61_receive_cuts_keys_violated",
    "Verif.C61_private_key_partial"
   ],
   "note": "False of the code: sealing and receiving are proved equal to sealing and receiving with the cut keys; only the private key passed to seal is checked."
  },
  {
   "property": "C62",
   "status": "proved",
   "theorems": [
    "Verif.C62_sealed_no_panic",
    "Verif.C62_answers_no_panic"
   ],
   "note": ""
  },
  {
   "property": "C63",
   "status": "partial",
   "theorems": [
    "Verif.C63_reload_violated",
    "Verif.C63_reload_partial",
    "Verif.C63_reload_iff_partial"
   ],
   "note": "False of the code: proved for every received message of the encrypted type; the round trip is proved for the other types."
  },
  {
   "property": "C64",
   "status": "partial",
   "theorems": [
    "Verif.C64_reply_addresses_sender_violated",
    "Verif.C64_reply_addresses_sender_partial"
   ],
   "note": "False of the code: proved for every reply made from a new message; holds after a call of to(..)."
  },
  {
   "property": "C65",
   "status": "partial",
   "theorems": [
    "Verif.C65_unaddressed_not_sealed_violated",
    "Verif.C65_unaddressed_not_sealed_partial"
   ],
   "note": "False of the code: a new message is proved to be sealed and received; an empty list of recipients is proved to be refused."
  },
  {
   "property": "C66",
   "status": "partial",
   "theorems": [
    "Verif.C66_signed_header_decides_violated",
    "Verif.C66_signed_header_decides_partial"
   ],
   "note": "False of the code: proved for every protected header; holds without unsigned headers."
  },
  {
   "property": "C67",
   "status": "partial",
   "theorems": [
    "Verif.C67_sender_names_agree_violated",
    "Verif.C67_sender_names_agree_partial"
   ],
   "note": "False of the code: proved for every sender and message; holds for envelopes made by seal."
  },
  {
   "property": "C68",
   "status": "partial",
   "theorems": [
    "Verif.C68_enc_names_cipher_violated",
    "Verif.C68_enc_names_cipher_partial"
   ],
   "note": "False of the code: proved for every label; holds for messages set up with as_jwe."
  },
  {
   "property": "C69",
   "status": "proved",
   "theorems": [
    "Verif.C69_receive_deterministic"
   ],
   "note": ""
  },
  {
   "property": "C70",
   "status": "partial",
   "theorems": [
    "Verif.C70_transmitted_header_violated",
    "Verif.C70_transmitted_header_partial",
    "Verif.C70_sealed_orders_violated"
   ],
   "note": "False of the code: refusal is proved for all envelopes with other associated data (including sealed ones under another map order); decryption is proved when the associated data is the header as this crate writes it."
  },
  {
   "property": "C71",
   "status": "partial",
   "theorems": [
    "Verif.C71_keys_enforce_protection_violated",
    "Verif.C71_keys_enforce_protection_partial"
   ],
   "note": "False of the code: proved for every message, sender and keys; inputs with an iv are proved to be opened and authenticated."
  },
  {
   "property": "C72",
   "status": "partial",
   "theorems": [
    "Verif.C72_rotation_authentic_violated",
    "Verif.C72_rotation_authentic_partial"
   ],
   "note": "False of the code: proved for all claims and senders; after seal and receive the claims are proved to be the sealer's."
  },
  {
   "property": "C73",
   "status": "partial",
   "theorems": [
    "Verif.C73_entry_bound_violated",
    "Verif.C73_entry_bound_partial"
   ],
   "note": "False of the code: proved for all pairs of envelopes of one sender and recipient; what opening an entry depends on is proved."
  },
  {
   "property": "C74",
   "status": "partial",
   "theorems": [
    "Verif.C74_signed_for_receiver_violated",
    "Verif.C74_signed_for_receiver_partial"
   ],
   "note": "False of the code: proved for every signed message and third party; that the returned message names the signer's recipients is proved."
  },
  {
   "property": "C75",
   "status": "partial",
   "theorems": [
    "Verif.C75_verify_value_agrees_violated",
    "Verif.C75_escaped_violated",
    "Verif.C75_verify_value_agrees_partial"
   ],
   "note": "False of the code for repeated members and for escaped signatures: both proved for every signed message; agreement is proved for all documents with distinct names and plain signatures."
  },
  {
   "property": "C76",
   "status": "proved",
   "theorems": [
    "Verif.C76_claims_iff",
    "Verif.C76_claims_bytes",
    "Verif.C76_claims_roundtrip",
    "Verif.C76_problem_roundtrip"
   ],
   "note": ""
  },
  {
   "property": "C77",
   "status": "partial",
   "theorems": [
    "Verif.C77_member_order",
    "Verif.C77_spelling_partial",
    "Verif.C77_escaped_signature_violated"
   ],
   "note": "False of the code for escapes inside signature strings: proved for every signed message; invariance is proved for all documents whose signatures are written without escapes, and for reordering alone without that condition."
  },
  {
   "property": "C78",
   "status": "partial",
   "theorems": [
    "Verif.C78_to_string_violated",
    "Verif.C78_to_string_partial"
   ],
   "note": "False of the code: proved for every variant."
  },
  {
   "property": "C79",
   "status": "partial",
   "theorems": [
    "Verif.C79_expired_refused_violated",
    "Verif.C79_expired_refused_partial"
   ],
   "note": "False of the code: proved for every message and time; that the recipient gets the times that were set is proved."
  },
  {
   "property": "C80",
   "status": "partial",
   "theorems": [
    "Verif.C80_receive_verify_violated",
    "Verif.C80_receive_verify_partial"
   ],
   "note": "False of the code: proved for every signer and pair of messages; agreement is proved for documents that do not read as a plain message."
  },
  {
   "property": "C81",
   "status": "partial",
   "theorems": [
    "Verif.C81_unprotected_inert_partial",
    "Verif.C81_unprotected_inert_violated"
   ],
   "note": "False of the code for envelopes without protected skid; independence is proved when the protected header has alg and skid."
  },
  {
   "property": "C82",
   "status": "partial",
   "theorems": [
    "Verif.C82_unknown_member_partial",
    "Verif.C82_signed_partial",
    "Verif.C82_unknown_member_violated"
   ],
   "note": "False of the code for plain messages; proved for encrypted documents (receive) and signed ones (verify, and receive for documents without a member `body`)."
  },
  {
   "property": "C83",
   "status": "proved",
   "theorems": [
    "Verif.C83_encrypt_outcomes",
    "Verif.C83_encrypt_document"
   ],
   "note": ""
  },
  {
   "property": "C84",
   "status": "proved",
   "theorems": [
    "Verif.C84_decrypt_encrypt",
    "Verif.C84_refusal_uniform"
   ],
   "note": ""
  },
  {
   "property": "C85",
   "status": "proved",
   "theorems": [
    "Verif.C85_shared_secret"
   ],
   "note": ""
  },
  {
   "property": "C86",
   "status": "proved",
   "theorems": [
    "Verif.C86_sizes"
   ],
   "note": ""
  },
  {
   "property": "C87",
   "status": "proved",
   "theorems": [
    "Verif.C87_typed_body",
    "Verif.C87_typed_body_received"
   ],
   "note": ""
  },
  {
   "property": "C88",
   "status": "proved",
   "theorems": [
    "Verif.C88_any_mediators",
    "Verif.C88_total",
    "Verif.C88_routed_by"
   ],
   "note": ""
  },
  {
   "property": "C89",
   "status": "proved",
   "theorems": [
    "Verif.C89_wrong_key",
    "Verif.C89_right_key"
   ],
   "note": ""
  },
  {
   "property": "C90",
   "status": "partial",
   "theorems": [
    "Verif.C90_own_label_violated",
    "Verif.C90_built_in_label_partial"
   ],
   "note": "False of the code for every label that is not built in; the exact acceptance condition is proved for the built in ones."
  },
  {
   "property": "C91",
   "status": "proved",
   "theorems": [
    "Verif.C91_growth",
    "Verif.C91_sealed"
   ],
   "note": ""
  },
  {
   "property": "C92",
   "status": "proved",
   "theorems": [
    "Verif.C92_receive_explicit",
    "Verif.C92_seal_explicit",
    "Verif.C92_seal_signed_explicit",
    "Verif.C92_routed_explicit"
   ],
   "note": ""
  },
  {
   "property": "C93",
   "status": "proved",
   "theorems": [
    "Verif.C93_as_jwe",
    "Verif.C93_seal",
    "Verif.C93_seal_signed",
    "Verif.C93_routed",
    "Verif.C93_receive",
    "Verif.C93_explicit",
    "Verif.C93_needs_keys"
   ],
   "note": ""
  },
  {
   "property": "C94",
   "status": "partial",
   "theorems": [
    "Verif.C94_refused",
    "Verif.C94_entry_header_violated",
    "Verif.C94_protected_violated",
    "Verif.C94_signature_header_violated"
   ],
   "note": "False of the code: refusal is proved for every such document and all keys; the documents that are read are characterised exactly by C95."
  },
  {
   "property": "C95",
   "status": "proved",
   "theorems": [
    "Verif.C95_message",
    "Verif.C95_jwe",
    "Verif.C95_jws",
    "Verif.C95_parts"
   ],
   "note": ""
  },
  {
   "property": "C96",
   "status": "proved",
   "theorems": [
    "Verif.C96_message",
    "Verif.C96_jwe",
    "Verif.C96_jws",
    "Verif.C96_message_iff",
    "Verif.C96_jwe_iff",
    "Verif.C96_jws_iff"
   ],
   "note": ""
  },
  {
   "property": "C97",
   "status": "proved",
   "theorems": [
    "Verif.C97_opens_exactly",
    "Verif.C97_seals_everything",
    "Verif.C97_one_tag",
    "Verif.C97_altered_tag"
   ],
   "note": ""
  },
  {
   "property": "C98",
   "status": "proved",
   "theorems": [
    "Verif.C98_same_secret",
    "Verif.C98_multiplication",
    "Verif.C98_same_public"
   ],
   "note": ""
  },
  {
   "property": "C99",
   "status": "partial",
   "theorems": [
    "Verif.C99_weak_recipient_violated",
    "Verif.C99_weak_sender_violated",
    "Verif.C99_weak_partial",
    "Verif.C99_weak_did_violated",
    "Verif.C99_any_recipient_violated",
    "Verif.C99_others_partial"
   ],
   "note": "False of the code: with each of the fourteen weak keys the secret is the same for every private key, sealing for them succeeds with a text that everyone can make, and an envelope made with them is opened alike with every private key; proved instead: with all other keys no private key gives that secret."
  },
  {
   "property": "C100",
   "status": "proved",
   "theorems": [
    "Verif.C100_seal_receive"
   ],
   "note": ""
  },
  {
   "property": "C101",
   "status": "partial",
   "theorems": [
    "Verif.C101_standard_partial",
    "Verif.C101_sizes",
    "Verif.C101_decrypt_violated",
    "Verif.C101_aad_violated"
   ],
   "note": "False of the code: the decrypter panics on everything and the associated data has no influence; proved instead: which keys and nonces are taken, and that the standard decryption opens every ciphertext."
  },
  {
   "property": "C102",
   "status": "proved",
   "theorems": [
    "Verif.C102_sign_verify",
    "Verif.C102_secrets"
   ],
   "note": ""
  },
  {
   "property": "C103",
   "status": "partial",
   "theorems": [
    "Verif.C103_mirror_violated",
    "Verif.C103_mirror_partial",
    "Verif.C103_text_partial",
    "Verif.C103_eddsa_partial"
   ],
   "note": "False of the code for ES256: proved for every secret, message and nonce; for ES256K the mirrored signature is proved to be refused; for EdDSA the second half of a signature is proved to be unique."
  },
  {
   "property": "C104",
   "status": "proved",
   "theorems": [
    "Verif.C104_pair",
    "Verif.C104_sign_verify",
    "Verif.C104_keys"
   ],
   "note": ""
  },
  {
   "property": "C105",
   "status": "partial",
   "theorems": [
    "Verif.C105_neutral_violated",
    "Verif.C105_bound_partial",
    "Verif.C105_others_partial"
   ],
   "note": "False of the code under the neutral element as public key: proved for every message; for all public keys but the fourteen of small order (C134), in particular those of secrets, two messages with one signature are proved to have hashes that agree modulo the order."
  },
  {
   "property": "C106",
   "status": "partial",
   "theorems": [
    "Verif.C106_halves_violated",
    "Verif.C106_refused_partial"
   ],
   "note": "False of the code: keys with any two halves sign, and the scalar is proved to be computable from two signatures; a signature made with another public half is proved to be refused under the public key of the secret unless the hashes agree."
  },
  {
   "property": "C107",
   "status": "proved",
   "theorems": [
    "Verif.C107_seal_signed"
   ],
   "note": ""
  },
  {
   "property": "C108",
   "status": "proved",
   "theorems": [
    "Verif.C108_ed25519",
    "Verif.C108_x25519",
    "Verif.C108_exact"
   ],
   "note": ""
  },
  {
   "property": "C109",
   "status": "proved",
   "theorems": [
    "Verif.C109_seal_receive",
    "Verif.C109_one_secret",
    "Verif.C109_routed"
   ],
   "note": ""
  },
  {
   "property": "C110",
   "status": "partial",
   "theorems": [
    "Verif.C110_one_did_violated",
    "Verif.C110_one_did_partial"
   ],
   "note": "False of the code: every secret is proved to own three DIDs with one key; for DIDs of Ed25519 keys the remaining coincidences are proved to be mirror images."
  },
  {
   "property": "C111",
   "status": "partial",
   "theorems": [
    "Verif.C111_sealed_body",
    "Verif.C111_plain_body",
    "Verif.C111_set_short_partial",
    "Verif.C111_received_short_partial",
    "Verif.C111_one_more_violated",
    "Verif.C111_drift_violated"
   ],
   "note": "False of the code: a number that is received one larger and a number that shrinks at each of 66 hops are proved for all messages, keys and random choices; what is received is stated exactly for all bodies, and short decimal numbers are proved to keep their values."
  },
  {
   "property": "C112",
   "status": "proved",
   "theorems": [
    "Verif.C112_receive_iff",
    "Verif.C112_content_kind"
   ],
   "note": ""
  },
  {
   "property": "C113",
   "status": "partial",
   "theorems": [
    "Verif.C113_names_message_violated",
    "Verif.C113_never_threaded_violated",
    "Verif.C113_one_thread_partial",
    "Verif.C113_decorator_partial"
   ],
   "note": "False of the code: a reply to an opener without thid names no thread, and no message of such a conversation does; proved for conversations of any length. With a thid in the opener every message carries it."
  },
  {
   "property": "C114",
   "status": "proved",
   "theorems": [
    "Verif.C114_length",
    "Verif.C114_same_message"
   ],
   "note": ""
  },
  {
   "property": "C115",
   "status": "partial",
   "theorems": [
    "Verif.C115_looked_at_partial",
    "Verif.C115_names_violated",
    "Verif.C115_iv_violated"
   ],
   "note": "False of the code: names and other labels in the entries and the end of the iv under A256GCM can be changed unnoticed. Proved beside it: what receive looks at in an envelope."
  },
  {
   "property": "C116",
   "status": "proved",
   "theorems": [
    "Verif.C116_one_reading",
    "Verif.C116_plain_or_signed",
    "Verif.C116_same_key"
   ],
   "note": ""
  },
  {
   "property": "C117",
   "status": "proved",
   "theorems": [
    "Verif.C117_same_text",
    "Verif.C117_impersonate"
   ],
   "note": ""
  },
  {
   "property": "C118",
   "status": "partial",
   "theorems": [
    "Verif.C118_reported_partial",
    "Verif.C118_violated"
   ],
   "note": "False of the code: the entries are not authenticated, so all but the own entry can be removed, any added after it, and the form changed (C118_violated). What holds: the message received is the one sealed and reports the entries the sender made, and without an entry that opens nothing is received (C118_reported_partial)."
  },
  {
   "property": "C119",
   "status": "proved",
   "theorems": [
    "Verif.C119_xc",
    "Verif.C119_gcm",
    "Verif.C119_envelope"
   ],
   "note": ""
  },
  {
   "property": "C120",
   "status": "proved",
   "theorems": [
    "Verif.C120_no_key",
    "Verif.C120_no_algorithm",
    "Verif.C120_no_sender",
    "Verif.C120_unresolved",
    "Verif.C120_bad_sender",
    "Verif.C120_not_for_reader",
    "Verif.C120_incomplete",
    "Verif.C120_refused",
    "Verif.C120_others",
    "Verif.C120_bad_signature",
    "Verif.C120_carrier"
   ],
   "note": ""
  },
  {
   "property": "C121",
   "status": "partial",
   "theorems": [
    "Verif.C121_violated",
    "Verif.C121_messages_violated",
    "Verif.C121_bound_partial"
   ],
   "note": "False of the code: to two messages a signer can choose a secret that has one signature for both, and both texts verify and are received with its public key. Proved instead: for a given public key such a signature is of two inputs with the same hash or gives away the secret, except if its first half is below p - n."
  },
  {
   "property": "C122",
   "status": "partial",
   "theorems": [
    "Verif.C122_three_partial",
    "Verif.C122_violated",
    "Verif.C122_messages_violated",
    "Verif.C122_two_partial"
   ],
   "note": "False of the code: from a signed text a second public key can be computed under which the text verifies and is received (there is none only if a linear equation holds). Proved instead: at most two points, of all keys that are taken, accept a signature for an input, except if its first half is below p - n."
  },
  {
   "property": "C123",
   "status": "partial",
   "theorems": [
    "Verif.C123_violated",
    "Verif.C123_one_block_partial",
    "Verif.C123_xc_violated",
    "Verif.C123_few_blocks_partial"
   ],
   "note": "False of the code: neither AES-256-GCM nor XChaCha20-Poly1305 commits to the key, and nothing in the envelope does. Two readers with different content keys can be given one ciphertext that both accept with contents chosen byte by byte for the one or the other. Proved instead: at most one last block out of 2^128 does so (eight with XChaCha20-Poly1305). Not proved: two contents that are both readable messages (that is a search over keys, not a statement for all inputs)."
  },
  {
   "property": "C124",
   "status": "partial",
   "theorems": [
    "Verif.C124_keys_partial",
    "Verif.C124_violated",
    "Verif.C124_messages_violated",
    "Verif.C124_secrets_partial",
    "Verif.C124_weak_partial"
   ],
   "note": "False of the code: the neutral element is taken for a public key in four spellings (the number need not be reduced and zero may have either sign), and one signature is accepted under all of them. Proved instead: for keys of secrets the exact condition, an equation between hashes over the keys; for all keys that are taken that such an equation is necessary; and that keys of small order belong to no secret and do not accept what a key of a secret accepts. Not proved: that the equation has no solution, which is a statement about the hash."
  },
  {
   "property": "C125",
   "status": "proved",
   "theorems": [
    "Verif.C125_seal",
    "Verif.C125_seal_signed",
    "Verif.C125_routed",
    "Verif.C125_receive",
    "Verif.C125_bits"
   ],
   "note": ""
  },
  {
   "property": "C126",
   "status": "proved",
   "theorems": [
    "Verif.C126_entry"
   ],
   "note": ""
  },
  {
   "property": "C127",
   "status": "proved",
   "theorems": [
    "Verif.C127_sign",
    "Verif.C127_hash",
    "Verif.C127_source",
    "Verif.C127_verify"
   ],
   "note": ""
  },
  {
   "property": "C128",
   "status": "proved",
   "theorems": [
    "Verif.C128_nonce",
    "Verif.C128_accepted"
   ],
   "note": ""
  },
  {
   "property": "C129",
   "status": "proved",
   "theorems": [
    "Verif.C129_encrypt"
   ],
   "note": ""
  },
  {
   "property": "C130",
   "status": "proved",
   "theorems": [
    "Verif.C130_gcm",
    "Verif.C130_xc",
    "Verif.C130_gcm_repeat",
    "Verif.C130_xc_repeat",
    "Verif.C130_envelope"
   ],
   "note": ""
  },
  {
   "property": "C131",
   "status": "proved",
   "theorems": [
    "Verif.C131_accepted",
    "Verif.C131_keys"
   ],
   "note": ""
  },
  {
   "property": "C132",
   "status": "proved",
   "theorems": [
    "Verif.C132_zero",
    "Verif.C132_secrets",
    "Verif.C132_constant",
    "Verif.C132_interchangeable",
    "Verif.C132_fourteen",
    "Verif.C132_seal",
    "Verif.C132_receive"
   ],
   "note": ""
  },
  {
   "property": "C133",
   "status": "proved",
   "theorems": [
    "Verif.C133_keys",
    "Verif.C133_one",
    "Verif.C133_count",
    "Verif.C133_signatures",
    "Verif.C133_verified"
   ],
   "note": ""
  },
  {
   "property": "C134",
   "status": "proved",
   "theorems": [
    "Verif.C134_fourteen",
    "Verif.C134_message",
    "Verif.C134_weak",
    "Verif.C134_number"
   ],
   "note": ""
  },
  {
   "property": "C135",
   "status": "proved",
   "theorems": [
    "Verif.C135_signatures",
    "Verif.C135_count",
    "Verif.C135_secrets",
    "Verif.C135_keys",
    "Verif.C135_mixed",
    "Verif.C135_verified"
   ],
   "note": ""
  },
  {
   "property": "C136",
   "status": "proved",
   "theorems": [
    "Verif.C136_readings",
    "Verif.C136_set",
    "Verif.C136_received",
    "Verif.C136_passed_on"
   ],
   "note": ""
  },
  {
   "property": "C137",
   "status": "partial",
   "theorems": [
    "Verif.C137_set",
    "Verif.C137_received",
    "Verif.C137_lost_violated",
    "Verif.C137_kept_partial",
    "Verif.C137_passed_on_partial"
   ],
   "note": "False of the code: every number of at most 2.4*10^-324 is taken without an error and received as zero (C137_lost_violated). Proved: numbers of 1.8*10^308 or more are refused in every place, also in members that are overwritten or unknown (C137_set, C137_received), and numbers from 2.5*10^-324 to 1.79*10^308 are taken and do not become zero, when the message is sealed and received (C137_kept_partial) and over any number of hops (C137_passed_on_partial). Nothing is said about numbers between 2.4*10^-324 and 2.5*10^-324 and between 1.79*10^308 and 1.8*10^308."
  },
  {
   "property": "C138",
   "status": "partial",
   "theorems": [
    "Verif.C138_same",
    "Verif.C138_bound_partial",
    "Verif.C138_entries",
    "Verif.C138_square_violated",
    "Verif.C138_first_partial",
    "Verif.C138_signed_partial"
   ],
   "note": "False of the code: receive_jws calls verify for the whole document once per signature, and verify goes through all signatures. For every n there is a text of at most 200 * (n + 1) characters, made without any secret, for which n * n signatures are checked, whatever the EdDSA key of the sender (C138_square_violated). Proved: never more than the square, and at most one check per signature if the document is the body of a message (C138_bound_partial); one check in all if the first signature is valid (C138_first_partial), so for everything the crate signs (C138_signed_partial); entries are tried at most once (C138_entries). The counters do not change the results (C138_same, C138_entries)."
  },
  {
   "property": "C139",
   "status": "proved",
   "theorems": [
    "Verif.C139_readings",
    "Verif.C139_passed_on",
    "Verif.C139_received",
    "Verif.C139_reload",
    "Verif.C139_forwarded"
   ],
   "note": ""
  },
  {
   "property": "C140",
   "status": "partial",
   "theorems": [
    "Verif.C140_swing_violated",
    "Verif.C140_periodic_partial",
    "Verif.C140_reload_partial"
   ],
   "note": "False of the code: 7.017768616780591e-9 is read as 7.0177686167805915e-9 and this as the first, so every hop changes the number for ever (C140_swing_violated). Proved: there are N and p, the same for all bodies, such that from hop N on the body comes again every p hops (C140_periodic_partial, C140_reload_partial)."
  },
  {
   "property": "C141",
   "status": "partial",
   "theorems": [
    "Verif.C141_order_violated",
    "Verif.C141_equal_violated",
    "Verif.C141_received_partial",
    "Verif.C141_passed_on_partial",
    "Verif.C141_aligned_partial"
   ],
   "note": "False of the code: 9.626009694122739e-8 < 9.62600969412274e-8 are set and received in the opposite order (C141_order_violated), and 3e-22 and 3.0e-22 as different numbers (C141_equal_violated). Proved: numbers that differ by more than the part 3/2^49 of their sizes, (n+1)/2^49 after n hops, keep their order (C141_received_partial, C141_passed_on_partial), and numbers with equally many decimals and digits that fit 64 bits are set in their order (C141_aligned_partial)."
  },
  {
   "property": "C142",
   "status": "partial",
   "theorems": [
    "Verif.C142_reflected_violated",
    "Verif.C142_own_violated",
    "Verif.C142_derived_partial",
    "Verif.C142_sealed_partial"
   ],
   "note": "False of the code: an envelope without recipient entries is received alike by two parties that each take the other for the sender (C142_reflected_violated), so what a party encrypts under the secret it shares with another it accepts itself as the other's, given the other's public key (C142_own_violated). Proved of sealed messages: the inputs of the key derivation differ unless sender and recipient have the same public key (C142_derived_partial), and the sender gets an error if no entry opens under the key it derives (C142_sealed_partial)."
  },
  {
   "property": "C143",
   "status": "partial",
   "theorems": [
    "Verif.C143_observer_violated",
    "Verif.C143_mediators_violated",
    "Verif.C143_replaced_violated"
   ],
   "note": "False of the code: without any key, an observer finds the recipient and the message in what goes to a mediator (C143_observer_violated), or to the first of any number of mediators (C143_mediators_violated), and can replace the message with any other from the same sender, which mediator and recipient accept (C143_replaced_violated)."
  },
  {
   "property": "C144",
   "status": "partial",
   "theorems": [
    "Verif.C144_same",
    "Verif.C144_receive_partial",
    "Verif.C144_seal_partial",
    "Verif.C144_seal_violated",
    "Verif.C144_stranger_violated",
    "Verif.C144_recipient_violated",
    "Verif.C144_first_violated",
    "Verif.C144_answer_partial",
    "Verif.C144_replaced_violated"
   ],
   "note": "False of the code: sealing asks twice for every recipient (C144_seal_violated), and if the document is replaced in between the message is sealed for no key (C144_replaced_violated); a reader asks once more for every entry it tries (C144_stranger_violated, C144_recipient_violated), and the key found first is not used (C144_first_violated). Proved: at most one call per entry and one more, none for given keys (C144_receive_partial, C144_seal_partial), and the content key comes from one entry opened with one answer (C144_answer_partial)."
  },
  {
   "property": "C145",
   "status": "partial",
   "theorems": [
    "Verif.C145_read_violated",
    "Verif.C145_plain_violated",
    "Verif.C145_signed_violated",
    "Verif.C145_sealed_violated",
    "Verif.C145_link_violated",
    "Verif.C145_claims_partial"
   ],
   "note": "False of the code: values read do not depend on hash, signature or size (C145_read_violated), and a message with any attachments is received whether plain (C145_plain_violated), signed (C145_signed_violated) or sealed (C145_sealed_violated), also with a link and no hash (C145_link_violated). Proved: the claims arrive as they were sent, so a reader can check them (C145_claims_partial)."
  },
  {
   "property": "C146",
   "status": "partial",
   "theorems": [
    "Verif.C146_seal_partial",
    "Verif.C146_seal_error_partial",
    "Verif.C146_receive_error_partial",
    "Verif.C146_receive_violated"
   ],
   "note": "False of the code: if the resolver answers the first call of receive and fails after it, every reader, recipient or not, is told \"could not decrypt cek\" (C146_receive_violated). Proved: a message is sealed only if both answers about every recipient were documents with a key (C146_seal_partial), and a failure of the first call is reported by sealing (C146_seal_error_partial) and by receiving (C146_receive_error_partial)."
  },
  {
   "property": "C147",
   "status": "proved",
   "theorems": [
    "Verif.C147_envelope",
    "Verif.C147_envelope_list",
    "Verif.C147_envelope_read",
    "Verif.C147_signed",
    "Verif.C147_signed_list",
    "Verif.C147_signed_read"
   ],
   "note": ""
  },
  {
   "property": "C148",
   "status": "partial",
   "theorems": [
    "Verif.C148_signed_violated",
    "Verif.C148_envelope_violated",
    "Verif.C148_signed_envelope_violated",
    "Verif.C148_content_partial"
   ],
   "note": "False of the code: whoever receives some message in an envelope opens the envelope with any signed document (C148_signed_violated) or any sealed envelope (C148_envelope_violated) as content and gets a serde error; a signed document holding an envelope is never received or verified (C148_signed_envelope_violated). Proved: the content of a received envelope is a message, returned itself or as the message held by the signed document carried in its body (C148_content_partial); C28 is the round trip for that form."
  },
  {
   "property": "C149",
   "status": "proved",
   "theorems": [
    "Verif.C149_passed_on",
    "Verif.C149_received",
    "Verif.C149_unprepared",
    "Verif.C149_to"
   ],
   "note": ""
  },
  {
   "property": "C150",
   "status": "partial",
   "theorems": [
    "Verif.C150_sealed_violated",
    "Verif.C150_replaced_violated",
    "Verif.C150_read_violated",
    "Verif.C150_lost_violated",
    "Verif.C150_set_partial",
    "Verif.C150_read_partial",
    "Verif.C150_written_partial"
   ],
   "note": "False of the code: with the feature raw_value of serde_json an object whose only member is $serde_json::private::RawValue with a JSON text is replaced by the value of the text, when a body is set (C150_replaced_violated) and when a message is read (C150_read_violated), and an object in which the name comes after another member is set, written in another order and then refused by whoever reads the message (C150_lost_violated); sealed, it is received by no recipient (C150_sealed_violated). Proved: where no object begins with the name setting, writing and reading are those of the rest of the model (C150_set_partial, C150_read_partial, C150_written_partial). The behaviour of serde_json is recalled."
  },
  {
   "property": "C151",
   "status": "proved",
   "theorems": [
    "Verif.C151_sealed",
    "Verif.C151_seal_signed",
    "Verif.C151_signed",
    "Verif.C151_plain",
    "Verif.C151_routed"
   ],
   "note": ""
  },
  {
   "property": "C152",
   "status": "proved",
   "theorems": [
    "Verif.C152_plain",
    "Verif.C152_sealed",
    "Verif.C152_signed",
    "Verif.C152_seal_signed",
    "Verif.C152_kinds"
   ],
   "note": ""
  },
  {
   "property": "C153",
   "status": "partial",
   "theorems": [
    "Verif.C153_set_violated",
    "Verif.C153_received_violated",
    "Verif.C153_again_violated",
    "Verif.C153_sealed_violated",
    "Verif.C153_set_partial",
    "Verif.C153_read_partial"
   ],
   "note": "False of the code: with the feature raw_value of serde_json a text two levels deep sets a body of any depth (C153_set_violated), a plain message brings its receiver a body of any depth (C153_received_violated), such a message cannot be read again (C153_again_violated), and in an envelope it is refused after it was opened (C153_sealed_violated). Proved: where no object begins with the name of RawValue a body is at most 127 levels deep when set (C153_set_partial) and 126 when read (C153_read_partial). The behaviour of serde_json is recalled."
  },
  {
   "property": "C154",
   "status": "proved",
   "theorems": [
    "Verif.C154_read",
    "Verif.C154_kind",
    "Verif.C154_verify_iff",
    "Verif.C154_verified",
    "Verif.C154_opened",
    "Verif.C154_panic",
    "Verif.C154_panic_iff",
    "Verif.C154_accepted_iff",
    "Verif.C154_carrier"
   ],
   "note": ""
  },
  {
   "property": "C155",
   "status": "proved",
   "theorems": [
    "Verif.C155_again",
    "Verif.C155_received"
   ],
   "note": ""
  }
 ]
}