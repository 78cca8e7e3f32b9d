{"id": "C01", "title": "base64url payload round-trip", "statement": "For every byte string, the text that AttachmentDataBuilder::with_raw_payload stores (and that every JWE/JWS field uses) is unpadded base64url over [A-Za-z0-9-_] and decoding it with the crate's decoder gives the same bytes back.", "quantifier": "all byte strings of any length", "why_tests_cant": "a test samples a few lengths; the residue-class handling (n mod 3) and every byte value must be covered", "anchors": ["src/messages/attachment.rs:AttachmentDataBuilder::with_raw_payload", "src/messages/helpers/serialization.rs:serialization_base64_buffer", "src/messages/jwe.rs:Jwe::new"]}
{"id": "C02", "title": "base64url decoding is canonical up to padding", "statement": "Whenever the decoder accepts a text, that text is the encoding of the decoded bytes followed by nothing but '=' padding; hence two different unpadded texts never decode to the same bytes, and any text with a foreign character is rejected. Exactly: a text is accepted if and only if it is an encoding followed by no padding or by at most the padding that fills the last group of four.", "quantifier": "all texts (any characters, any length)", "why_tests_cant": "the set of rejected texts is infinite; trailing-bit and padding corner cases are exactly the ones samples miss", "anchors": ["src/messages/helpers/serialization.rs", "src/messages/jwe.rs:Jwe::get_payload", "src/messages/jwe.rs:Jwe::get_iv"]}
{"id": "C03", "title": "JSON text round-trip", "statement": "Every JSON document the crate writes is read back as the same document: parsing the compact serialization of any JSON tree (any strings, including control characters, quotes and non-BMP characters, any nesting, any object size) yields that tree.", "quantifier": "all JSON trees with grammatical number tokens", "why_tests_cant": "unbounded nesting and all of Unicode", "anchors": ["src/messages/message.rs:Message::as_raw_json", "src/messages/message.rs:Message::body", "src/messages/message.rs:Message::get_body"]}
{"id": "C04", "title": "body setter and getter agree", "statement": "m.body(text) fails exactly when text is not a JSON document serde_json accepts, leaves every other part of the message unchanged, and m.body(m.get_body()?) gives m back; get_body of a set body is the canonical form of the text and setting it again is idempotent.", "quantifier": "all messages and all texts", "why_tests_cant": "all texts, including malformed ones", "anchors": ["src/messages/message.rs:Message::body", "src/messages/message.rs:Message::get_body"]}
{"id": "C05", "title": "plain message round-trip", "statement": "For every message m whose `to` is non-empty, whose typ is not the signed or encrypted type and whose custom headers avoid the reserved names, Message::receive(m.as_raw_json(), ...) returns m itself (all headers, body, attachments, custom headers), whatever keys are passed and whatever the hash-map iteration order is.", "quantifier": "all such messages, all hash iteration orders, all key arguments", "why_tests_cant": "field-presence combinations (2^17 optional fields), all strings, arbitrary map order", "anchors": ["src/messages/message.rs:Message::as_raw_json", "src/messages/message.rs:Message::receive", "src/messages/headers/didcomm.rs:DidCommHeader"]}
{"id": "C06", "title": "plain round-trip of every constructible message (violated)", "statement": "Every message a user can build with the setters can be serialized with as_raw_json and received again. The code violates this: a message with an empty `to`, a custom header named like a built-in one (id, type, body, iv, signature, ...), or a body nested 127 levels deep serializes without error and can never be received.", "quantifier": "all messages the setters can produce", "why_tests_cant": "needs a search over header names and shapes; a passing suite says nothing", "anchors": ["src/messages/headers/didcomm.rs:DidCommHeader::to", "src/messages/message.rs:Message::add_header_field", "src/messages/helpers/receive.rs:get_message_type"]}
{"id": "C07", "title": "received messages are stable under store and reload", "statement": "Any message obtained from parsing any text (receive_external_crypto, receive) with a non-empty `to` can be serialized and parsed again and gives the same message, but that the numbers of its body are read again (which keeps 64-bit integers, see C111 for the others), for every serialization order of its maps.", "quantifier": "all input texts, all hash iteration orders", "why_tests_cant": "ranges over every accepted input text, most of which the crate did not write", "anchors": ["src/messages/message.rs:Message::receive_external_crypto", "src/messages/message.rs:Message::as_raw_json"]}
{"id": "C08", "title": "`to` collects recipients and drops empty entries", "statement": "After any sequence of .to(..) calls the recipient list is exactly the previous list followed by the given DIDs in order, with every empty string removed; the call always terminates and changes nothing else.", "quantifier": "all messages, all argument lists, all call sequences", "why_tests_cant": "the removal loop mutates while searching; termination and order need an induction", "anchors": ["src/messages/message.rs:Message::to"]}
{"id": "C09", "title": "custom headers behave as a last-write-wins map", "statement": "After any sequence of add_header_field calls, get_application_params yields for each non-empty key exactly the last value added for it (or the initial one), yields no empty key that was not already there, and nothing else in the message changes.", "quantifier": "all call histories", "why_tests_cant": "unbounded histories with overwrites and empty keys", "anchors": ["src/messages/message.rs:Message::add_header_field", "src/messages/message.rs:Message::get_application_params"]}
{"id": "C10", "title": "reply_to links a reply to its thread and addresses the sender", "statement": "m.reply_to(x) appends x.from to m.to; copies x's thid and pthid unless x carries a ~thread decorator that makes it an implicit reply, in which case thid and the new thread are that decorator's thid and pthid is kept; nothing else changes.", "quantifier": "all pairs of messages", "why_tests_cant": "all thread-decorator contents", "anchors": ["src/messages/headers/didcomm.rs:DidCommHeader::reply_to", "src/messages/message.rs:Message::reply_to", "src/messages/headers/decorators.rs:Thread::is_implicit_reply"]}
{"id": "C11", "title": "with_parent nests under the parent's thread", "statement": "m.with_parent(p) sets pthid to p's thid, or to p's id when p has no thid, and changes nothing else; so get_message_uri afterwards ends with that value.", "quantifier": "all pairs of messages", "why_tests_cant": "all header combinations", "anchors": ["src/messages/message.rs:Message::with_parent"]}
{"id": "C12", "title": "message URI identifies id, thid and pthid (violated)", "statement": "Two messages with different (id, thid, pthid) have different message URIs. The code violates this: the three parts are concatenated without separators. It does hold among messages whose ids have equal length and whose thids have equal length.", "quantifier": "all pairs of headers", "why_tests_cant": "collisions must be searched for", "anchors": ["src/messages/headers/didcomm.rs:DidCommHeader::get_message_uri"]}
{"id": "C13", "title": "rotation data is returned exactly for rotation messages", "statement": "get_prior returns the claims received in from_prior if is_rotation is true and NoRotationData otherwise; it never panics.", "quantifier": "all messages", "why_tests_cant": "all messages", "anchors": ["src/messages/message.rs:Message::get_prior", "src/messages/message.rs:Message::is_rotation"]}
{"id": "C14", "title": "setters touch only their own header", "statement": "from, m_type, typ, kid, thid, pthid, timed, as_jws, as_jwe, jwm_header, didcomm_header each change exactly the documented header fields, the last call wins, and setters of different fields commute.", "quantifier": "all messages, all argument values, all setter sequences", "why_tests_cant": "quantifies over all histories of setter calls", "anchors": ["src/messages/message.rs:impl Message"]}
{"id": "C15", "title": "seal rejects malformed requests", "statement": "seal returns InvalidKeySize for a sender key that is not 32 bytes, an error if the number of recipient keys differs from the number of recipients, NoJweRecipient for an empty `to`, an error for flat serialization with more than one recipient, and an error for a missing or unsupported alg; it never returns an envelope in those cases.", "quantifier": "all messages, all keys, all randomness", "why_tests_cant": "precedence of checks over all inputs", "anchors": ["src/messages/message.rs:Message::seal", "src/messages/helpers/encryption.rs:encrypt_cek"]}
{"id": "C16", "title": "seal then receive returns the message (explicit keys)", "statement": "For every well-formed message with a `from`, set up with as_jwe for XC20P or A256GCM, every sender key and recipient key pair, receiving the sealed envelope with the recipient's private key and the sender's public key returns a message with the same JWM header, DIDComm header (including custom headers), body and attachments.", "quantifier": "all messages, keys, nonces, ephemeral keys and hash orders, for any crypto primitives satisfying the AEAD, DH and hash laws", "why_tests_cant": "the tests check one body under one key set", "anchors": ["src/messages/message.rs:Message::seal", "src/messages/message.rs:Message::receive", "src/messages/message_raw_crypto.rs:Message::encrypt", "src/messages/message_raw_crypto.rs:Message::decrypt"]}
{"id": "C17", "title": "every recipient of a multi-recipient envelope can open it", "statement": "For any number of recipients, each listed recipient can receive the envelope with its own private key provided the entries of the recipients before it do not open under its key to something else.", "quantifier": "any number of recipients, every position", "why_tests_cant": "the number of recipients is unbounded", "anchors": ["src/messages/message.rs:Message::seal", "src/messages/helpers/receive.rs:receive_jwe"]}
{"id": "C18", "title": "seal then receive with DID-resolved keys", "statement": "If the recipients' keys and the sender's key are resolved from their DIDs, an envelope sealed without explicit keys is received without an explicit sender key, whenever the DID documents hold the matching X25519 keys.", "quantifier": "all DIDs, documents, messages", "why_tests_cant": "all resolver contents", "anchors": ["src/messages/helpers/encryption.rs:generate_shared_for_recipient", "src/messages/helpers/receive.rs:receive_jwe"]}
{"id": "C19", "title": "flat JWE serialization", "statement": "A message set up with as_flat_jwe and one recipient is sealed to an object with top-level header and encrypted_key and no recipients member, and it is received like the general form; as_jwe gives a recipients array with one entry per `to` in the same order, each labelled with that recipient's DID.", "quantifier": "all messages", "why_tests_cant": "shape must hold for all messages", "anchors": ["src/messages/message_raw_crypto.rs:Message::encrypt", "src/messages/jwe.rs:Jwe::new_flat"]}
{"id": "C20", "title": "an accepted JWE was authenticated", "statement": "If receive returns a message for an input it classifies as encrypted, then some recipient entry's wrapped key opened under the key derived from the given recipient key, the entry's ephemeral key and the sender's key (or there are no recipient entries and the static shared secret is used), and the content opened under that key with the protected header as associated data; the result is what that plaintext says.", "quantifier": "all input texts and keys", "why_tests_cant": "a statement about all inputs, including adversarial ones", "anchors": ["src/messages/helpers/receive.rs:receive_jwe", "src/messages/helpers/encryption.rs:decrypt_cek", "src/messages/message_raw_crypto.rs:Message::decrypt"]}
{"id": "C21", "title": "tampering with the protected JWE header is detected", "statement": "If two envelopes that differ only in the protected header are both decrypted successfully under the same content key, then either the two headers hold the same field values or the AEAD produced the same ciphertext for two different associated data (a forgery).", "quantifier": "all pairs of envelopes", "why_tests_cant": "ranges over all tamperings", "anchors": ["src/messages/message_raw_crypto.rs:Message::decrypt"]}
{"id": "C22", "title": "protected header bytes are bound exactly (violated)", "statement": "Changing any byte of the transmitted protected header makes verification fail. The code violates this: both verify and decrypt re-serialize the parsed header, so unknown members, member order and white space in the transmitted header are not authenticated.", "quantifier": "all envelopes", "why_tests_cant": "needs reasoning about all encodings of a header", "anchors": ["src/messages/message_raw_crypto.rs:Message::verify", "src/messages/message_raw_crypto.rs:Message::decrypt", "src/messages/helpers/serialization.rs"]}
{"id": "C23", "title": "sealed envelopes expose the intended public header", "statement": "The protected header of every sealed envelope is the message's JWM header with skid set to `from` and typ set to the encrypted type, or kept as forward for forward messages; nothing of the body, attachments or custom headers is in it.", "quantifier": "all messages", "why_tests_cant": "all messages", "anchors": ["src/messages/message_raw_crypto.rs:Message::encrypt"]}
{"id": "C24", "title": "sign then verify returns the message", "statement": "For each of EdDSA, ES256 and ES256K, a message signed after as_jws (general form with non-empty `to`, or flat form) verifies under the matching public key and yields the same DIDComm header, body and attachments with a fresh plain JWM header.", "quantifier": "all messages, keys, hash orders; any signature scheme with correct verification", "why_tests_cant": "the tests check one body", "anchors": ["src/messages/message_raw_crypto.rs:Message::sign", "src/messages/message_raw_crypto.rs:Message::verify"]}
{"id": "C25", "title": "verify accepts only validly signed payloads", "statement": "If verify returns a message then the JWS carries a signature that the algorithm named in it accepts under the given key over base64url(protected header) '.' payload, and the message is the one encoded in that payload.", "quantifier": "all byte inputs and keys", "why_tests_cant": "adversarial inputs", "anchors": ["src/messages/message_raw_crypto.rs:Message::verify"]}
{"id": "C26", "title": "exact acceptance rule for several signatures", "statement": "verify succeeds exactly when some signature is valid, every signature before it is well-formed but invalid, and the payload decodes to a message; in particular a malformed signature placed before a valid one makes the whole JWS fail.", "quantifier": "all lists of signatures", "why_tests_cant": "all lists and positions", "anchors": ["src/messages/message_raw_crypto.rs:Message::verify"]}
{"id": "C27", "title": "a signed message is always verifiable (violated)", "statement": "Whenever sign succeeds, verify with the matching public key succeeds. The code violates this: a general-form message with empty `to` is signed without error with zero signatures, and a header with a jwk holding two custom members verifies or not depending on the hash-map order.", "quantifier": "all messages, all hash orders", "why_tests_cant": "the hash order is random per process, so a test cannot decide it", "anchors": ["src/messages/message_raw_crypto.rs:Message::sign", "src/messages/headers/jwk.rs:Jwk"]}
{"id": "C28", "title": "seal_signed then receive returns the signed message", "statement": "For all well-formed messages and matching keys, receiving a seal_signed envelope with the signer's public key returns the DIDComm header, body and attachments of the original; if no verification key is given, the hex-decoded kid is used.", "quantifier": "all messages, keys, randomness", "why_tests_cant": "composition of all layers over all messages", "anchors": ["src/messages/message.rs:Message::seal_signed", "src/messages/helpers/receive.rs:receive_jws"]}
{"id": "C29", "title": "receive never skips signature verification (violated)", "statement": "If receive is given a verification key and the (decrypted) input is a JWS or a message of the signed type, a returned message has been verified under exactly that key. The code violates this: an encrypted message of the signed type with a custom header `iv` is classified as a JWE and returned unverified. What holds: input classified as signed is always verified under the given key, and any returned message was verified, is not of the signed type, or has the custom header `iv`.", "quantifier": "all input texts, all keys", "why_tests_cant": "adversarial inputs", "anchors": ["src/messages/helpers/receive.rs:receive_jws", "src/messages/helpers/encryption.rs:get_signing_sender_public_key"]}
{"id": "C30", "title": "verification key choice", "statement": "The key used to verify is the explicit one if given, otherwise the hex decoding of kid; with neither, or with a kid that is not hex, receive fails.", "quantifier": "all keys and kids", "why_tests_cant": "all strings", "anchors": ["src/messages/helpers/encryption.rs:get_signing_sender_public_key"]}
{"id": "C31", "title": "sender authenticity without a verification key (violated)", "statement": "A signed message accepted by receive without an explicit key was signed by the DID in its `from`. The code violates this: for any content and any `from`, a signer using its own key and the hex of its own public key as kid is accepted.", "quantifier": "all messages, all attackers' keys", "why_tests_cant": "an existence claim about attackers", "anchors": ["src/messages/helpers/encryption.rs:get_signing_sender_public_key", "src/messages/helpers/receive.rs:receive_jws"]}
{"id": "C32", "title": "content keys are fresh (violated)", "statement": "Two envelopes do not share a content key unless they are the same seal call. The code violates this: the content key is a constant (ChaCha20Rng seeded with zeros), so every sealed envelope can be decrypted by anyone with Message::decrypt and that constant, without any private key.", "quantifier": "all messages, senders, recipients", "why_tests_cant": "each test sees one envelope; the constant shows only across all of them", "anchors": ["src/messages/message.rs:Message::seal"]}
{"id": "C33", "title": "an envelope accepted as from a sender was made by that sender (violated)", "statement": "With the constant content key, anyone who has seen one envelope sealed by A for B can make, without any private key, an envelope with any other message that B receives as authenticated by A.", "quantifier": "all observed envelopes, all substituted messages", "why_tests_cant": "existence of an attack over all messages", "anchors": ["src/messages/message.rs:Message::seal", "src/messages/helpers/receive.rs:receive_jwe"]}
{"id": "C34", "title": "receive never panics on untrusted input (violated)", "statement": "For every input text and every keys of at least 32 bytes, receive returns Ok or Err. The code violates this for encrypted input (unwrap on base64, nonce and key sizes). It holds for every input not classified as encrypted, and for encrypted input whose iv and ciphertext are base64url, whose nonces have the size of the algorithm and whose unwrapped key has 32 bytes.", "quantifier": "all texts and keys", "why_tests_cant": "all adversarial inputs", "anchors": ["src/messages/jwe.rs:Jwe::get_iv", "src/messages/jwe.rs:Jwe::get_payload", "src/messages/helpers/encryption.rs:decrypt_cek"]}
{"id": "C35", "title": "message classification", "statement": "Input with a non-null iv member is treated as encrypted, otherwise input with a non-null signature or signatures member as signed, otherwise the typ header of a plain message decides; anything else is rejected.", "quantifier": "all texts", "why_tests_cant": "all texts", "anchors": ["src/messages/helpers/receive.rs:get_message_type"]}
{"id": "C36", "title": "encrypted input needs a private key", "statement": "receive without a recipient private key fails on every encrypted input and never fails for that reason on other input; keys not needed for an input do not influence the result.", "quantifier": "all texts, all keys", "why_tests_cant": "all inputs", "anchors": ["src/messages/message.rs:Message::receive"]}
{"id": "C37", "title": "sender and recipient derive the same key-encryption key", "statement": "For all key pairs, ephemeral keys and algorithms, the key derived when wrapping equals the key derived when unwrapping, and the derivation fails only for over-long inputs.", "quantifier": "all keys", "why_tests_cant": "all keys", "anchors": ["src/messages/helpers/encryption.rs:generate_kek", "src/messages/helpers/encryption.rs:concat_kdf"]}
{"id": "C38", "title": "key-derivation input is unambiguous", "statement": "The byte string hashed by the key derivation determines the algorithm name, party infos and the shared secret (for secrets of equal length): different inputs never collide before hashing; its length fields are big-endian 32-bit.", "quantifier": "all algorithm names, infos and secrets", "why_tests_cant": "injectivity", "anchors": ["src/messages/helpers/encryption.rs:concat_kdf", "src/messages/helpers/encryption.rs:get_length_and_input"]}
{"id": "C39", "title": "algorithm labels are consistent", "statement": "as_jwe followed by seal uses the cipher that receive selects from the header, for XC20P and A256GCM; as_jws writes the name that verify maps back to the same algorithm. For A256CBC the labels are swapped and seal always fails.", "quantifier": "all messages", "why_tests_cant": "all messages", "anchors": ["src/messages/headers/jwm.rs:JwmHeader::as_encrypted", "src/crypto/encryptor.rs:TryFrom", "src/crypto/signer.rs:TryFrom"]}
{"id": "C40", "title": "enum labels round-trip", "statement": "Every MessageType, KeyAlgorithm, KeyOps value is written as a distinct label and read back as itself; any other label is rejected.", "quantifier": "all values, all texts", "why_tests_cant": "rejects all other texts", "anchors": ["src/messages/headers/types.rs", "src/messages/headers/jwk.rs"]}
{"id": "C41", "title": "mediated message reaches the recipient", "statement": "A message routed with routed_by is received by the mediator as a forward message whose body names the first recipient and holds bytes that, received by the recipient, give the original headers, body and attachments.", "quantifier": "all messages, keys, randomness", "why_tests_cant": "two nested envelopes over all messages", "anchors": ["src/messages/message.rs:Message::routed_by", "src/messages/mediated.rs:Mediated"]}
{"id": "C42", "title": "Mediated::shape parses forward bodies (violated)", "statement": "Mediated::shape returns the routing information of a forward message. The code violates this: it fails for every message, because the body is serialized twice.", "quantifier": "all messages", "why_tests_cant": "universal failure is a universal statement", "anchors": ["src/messages/mediated.rs:Mediated::shape"]}
{"id": "C43", "title": "iv of a sealed envelope can be read (violated)", "statement": "Message::get_iv on an envelope produced by seal returns its iv. The code violates this: it fails on every such envelope, because it expects 24 characters of text while seal writes the 32-character encoding of 24 bytes.", "quantifier": "all sealed envelopes", "why_tests_cant": "universal failure", "anchors": ["src/messages/message.rs:Message::get_iv", "src/messages/jwe.rs:Jwe::generate_iv"]}
{"id": "C44", "title": "external-crypto envelope carries the exported iv (violated)", "statement": "The iv handed out by export_for_encryption is the one in the envelope built by seal_pre_encrypted. The code violates this: the envelope's iv is drawn independently. The exported payload itself parses back to the message, and received_as_jwe recovers the ciphertext.", "quantifier": "all messages, all randomness", "why_tests_cant": "needs all random draws", "anchors": ["src/messages/message.rs:Message::export_for_encryption", "src/messages/message.rs:Message::seal_pre_encrypted", "src/messages/message.rs:Message::received_as_jwe"]}
{"id": "C45", "title": "anonymous envelopes can be received (violated)", "statement": "A sealed message can be received whether or not `from` is set. The code violates this: with from = None, seal succeeds and receive always fails, even with an explicit sender key.", "quantifier": "all such messages", "why_tests_cant": "universal failure", "anchors": ["src/messages/helpers/encryption.rs:decrypt_cek", "src/messages/message_raw_crypto.rs:Message::encrypt"]}
{"id": "C46", "title": "DID extraction from DID URLs", "statement": "The recipient label is the DID part of a DID URL: for did:method:id followed by optional path, query and fragment it is exactly did:method:id; it is always a prefix of the input, is empty for malformed input, and extraction is idempotent.", "quantifier": "all strings", "why_tests_cant": "regular-language property over all strings", "anchors": ["src/messages/helpers/encryption.rs:get_did_from_didurl"]}
{"id": "C47", "title": "problem codes", "statement": "Problem::from_code accepts exactly the codes of this grammar: sorter 'e', 'w' or '|', a dot, a scope of 1 to 32 lower case letters and digits, and one to three dot-separated descriptors of letters and hyphens, where the first of three descriptors has no hyphen. The accepted problem carries the code and nothing else. The code produced by from_known_problem is never accepted.", "quantifier": "all strings, all known problems", "why_tests_cant": "all strings", "anchors": ["src/messages/problem_report.rs:Problem::from_code", "src/messages/problem_report.rs:KnownProblems"]}
{"id": "C48", "title": "attachments", "statement": "Attachments are kept in the order appended; every builder setter changes only its field; the values appended with format application/json come back from deserialize_attachments in order, and any other requested media type fails.", "quantifier": "all sequences of attachments", "why_tests_cant": "all sequences", "anchors": ["src/messages/attachment.rs"]}
{"id": "C49", "title": "header getters of envelopes", "statement": "A JWE header getter prefers the protected header over the unprotected one and a JWS signature getter prefers the unprotected header; the value is none exactly if neither has it.", "quantifier": "all envelopes", "why_tests_cant": "all combinations", "anchors": ["src/messages/helpers/getters.rs:create_fallback_getter", "src/messages/jwe.rs:Jwe", "src/messages/jws.rs:Signature"]}
{"id": "C50", "title": "received JWE detection", "statement": "received_as_jwe returns an envelope exactly if the bytes parse as a JWE with a skid in one of its headers, and then gives access to the transmitted ciphertext.", "quantifier": "all byte strings", "why_tests_cant": "all byte strings", "anchors": ["src/messages/message.rs:Message::received_as_jwe"]}
{"id": "C51", "title": "out-of-band invitations", "statement": "as_out_of_band_invitation yields a plain message of the invitation type with the given body and the given attachments appended in order, fails if the body is not JSON, and panics exactly if it is not UTF-8.", "quantifier": "all messages, bodies, attachment lists", "why_tests_cant": "all inputs", "anchors": ["src/messages/out_of_band.rs"]}
{"id": "C52", "title": "thread decorators", "statement": "A thread is an implicit reply to other messages only: is_implicit_reply(id) holds exactly if the thread id differs from id and every received order is zero; the constructors set exactly the documented fields.", "quantifier": "all threads and ids", "why_tests_cant": "all maps", "anchors": ["src/messages/headers/decorators.rs"]}
{"id": "C53", "title": "signing keeps the payload type plain", "statement": "The payload inside every JWS is a plain message (typ plain, no JOSE headers), the protected header has the signed type, there is one identical signature per recipient in the general form and exactly one in the flat form. The flat form is written after as_flat_jws, the general form for a new message after as_jws.", "quantifier": "all messages", "why_tests_cant": "all messages", "anchors": ["src/messages/message_raw_crypto.rs:Message::sign"]}
{"id": "C54", "title": "hex key ids", "statement": "hex-encoding a public key and using it as kid makes receive use that key: decoding inverts encoding for all byte strings, accepts both letter cases and rejects odd lengths and other characters.", "quantifier": "all byte strings, all texts", "why_tests_cant": "all texts", "anchors": ["src/messages/helpers/encryption.rs:get_signing_sender_public_key"]}
{"id": "C55", "title": "cipher wrappers reject short nonces", "statement": "The XC20P and A256GCM ciphers return an error for nonces shorter than 24 and 12 bytes, decrypt what they encrypt, and A256GCM uses exactly the first 12 nonce bytes.", "quantifier": "all nonces, keys, messages", "why_tests_cant": "all sizes", "anchors": ["src/crypto/encryptor.rs"]}
{"id": "C56", "title": "forward header constructor (violated)", "statement": "DidCommHeader::forward yields a header of the forward type. The code violates this: the type stays JWM; to, from, created_time and expires_time are set as given.", "quantifier": "all arguments", "why_tests_cant": "all arguments", "anchors": ["src/messages/headers/didcomm.rs:DidCommHeader::forward"]}
{"id": "C57", "title": "routing a message without recipient (violated)", "statement": "routed_by reports an error when the message names no recipient. The code violates this: with a supported algorithm it panics for every message whose `to` list is empty.", "quantifier": "all messages, keys, mediators, randomness", "why_tests_cant": "all messages and keys", "anchors": ["src/messages/message.rs:Message::routed_by"]}
{"id": "C58", "title": "attachments are selected by media type (violated)", "statement": "deserialize_attachments returns the attachments whose media type is application/json, as documented. The code violates this: it selects by `format`, so an attachment built from a value under another format has media type application/json and is never returned. With format application/json it is returned in order.", "quantifier": "all messages, values, formats, decoders", "why_tests_cant": "all formats and values", "anchors": ["src/messages/attachment.rs:Message::deserialize_attachments"]}
{"id": "C59", "title": "every DID is its own label (violated)", "statement": "Extracting the DID from a DID gives the DID itself. The code violates this: DIDs valid under DID core, such as did:3:abc and did:web:example.com:user, give the empty text. It holds when method name and name parts are lower case letters.", "quantifier": "all DIDs", "why_tests_cant": "all strings", "anchors": ["src/messages/helpers/encryption.rs:get_did_from_didurl"]}
{"id": "C60", "title": "sealing never panics (violated)", "statement": "seal, seal_signed, sign and routed_by return an error and do not panic, whatever keys the caller or the resolver supplies. The code violates this: a recipient key shorter than 32 bytes makes seal panic. It holds when every recipient key has at least 32 bytes.", "quantifier": "all messages, keys, randomness, resolver answers", "why_tests_cant": "all messages and keys of all lengths", "anchors": ["src/messages/message.rs:Message::seal", "src/messages/helpers/encryption.rs:generate_shared_for_recipient"]}
{"id": "C61", "title": "keys of the wrong size are rejected (violated)", "statement": "A key that does not have 32 bytes is rejected when sealing and when receiving. The code violates this: longer public keys when sealing, and longer private and sender keys when receiving, are cut to their first 32 bytes and used. The private key passed to seal is checked.", "quantifier": "all messages, texts, keys", "why_tests_cant": "keys of every length", "anchors": ["src/messages/helpers/encryption.rs:generate_shared_for_recipient", "src/messages/helpers/receive.rs:receive_jwe"]}
{"id": "C62", "title": "receiving a sealed envelope never panics", "statement": "Receiving a text produced by seal never panics, for whatever private key, sender key and verification key of at least 32 bytes the receiver passes, right or wrong.", "quantifier": "all messages, seal and receive keys, randomness, map orders", "why_tests_cant": "all wrong keys", "anchors": ["src/messages/helpers/receive.rs:receive_jwe", "src/messages/message.rs:Message::receive"]}
{"id": "C63", "title": "decrypted messages can be stored and received again (violated)", "statement": "A message returned by receive can be written with as_raw_json and received again without keys, giving the same message. The code violates this: a message prepared with as_jwe keeps its encrypted typ after opening, and its JSON is then refused by receive for whatever keys. It holds when typ is neither the encrypted nor the signed one, or is set to the plain one first.", "quantifier": "all received texts, keys, map orders", "why_tests_cant": "all messages and keys", "anchors": ["src/messages/message.rs:Message::receive", "src/messages/message.rs:Message::as_raw_json"]}
{"id": "C64", "title": "a reply addresses exactly the sender (violated)", "statement": "Message::new().reply_to(x) is addressed to exactly the sender of x. The code violates this: the empty name every new message starts with stays in front of the sender, so sealing for the sender's key alone is refused and the first recipient is empty. It holds after a call of to(..), which drops the empty name.", "quantifier": "all received messages x, algorithms, keys", "why_tests_cant": "all messages", "anchors": ["src/messages/message.rs:Message::reply_to", "src/messages/message.rs:Message::new"]}
{"id": "C65", "title": "a message that was given no recipient cannot be sealed (violated)", "statement": "seal fails for a message to which no recipient was added. The code violates this: a new message holds the empty name as recipient and can be sealed for any one key. It holds for messages whose list of recipients is empty.", "quantifier": "all algorithms, keys, randomness", "why_tests_cant": "all keys", "anchors": ["src/messages/message.rs:Message::seal", "src/messages/message.rs:Message::new"]}
{"id": "C66", "title": "the signed header decides algorithm and key (violated)", "statement": "The algorithm and the key id used to verify a signature are those of its signed (protected) header. The code violates this: the unsigned header is preferred, so that for every protected header there is an accepted JWS verified with another algorithm and key. It holds for signatures without unsigned header.", "quantifier": "all headers, messages, key pairs, map orders", "why_tests_cant": "all headers", "anchors": ["src/messages/jws.rs:Signature", "src/messages/helpers/receive.rs:receive_jws"]}
{"id": "C67", "title": "the authenticated sender and the `from` header agree (violated)", "statement": "The `from` of a message received from an envelope is the sender whose key opened it (skid). The code violates this: for every sender with its own key and every message with any `from` there is an accepted envelope naming that sender. It holds for envelopes made by seal.", "quantifier": "all senders, keys, messages", "why_tests_cant": "all messages and senders", "anchors": ["src/messages/helpers/receive.rs:receive_jwe", "src/messages/message.rs:Message::seal"]}
{"id": "C68", "title": "`enc` names the content cipher (violated)", "statement": "The enc member of the protected header of an accepted envelope names the cipher the content was opened with. The code violates this: enc is never looked at, envelopes with any enc are made and received. It holds for messages set up with as_jwe.", "quantifier": "all enc labels, messages, keys", "why_tests_cant": "all labels", "anchors": ["src/messages/helpers/receive.rs:receive_jwe", "src/messages/message_raw_crypto.rs:decrypt"]}
{"id": "C69", "title": "receive does not depend on hash iteration order", "statement": "The result of receive is the same for every iteration order of the hash maps involved (custom headers, jwk members), for every input text and keys, provided the protected headers met have at most one custom member in jwk and in epk.", "quantifier": "all texts, keys, pairs of map orders", "why_tests_cant": "hash orders are random per process; tests see few of them", "anchors": ["src/messages/message.rs:Message::receive", "src/messages/headers/jwk.rs:Jwk", "src/messages/headers/didcomm.rs:DidCommHeader"]}
{"id": "C70", "title": "envelopes authenticated over the transmitted header are opened (violated)", "statement": "An envelope whose associated data is its protected header as transmitted (RFC 7516) is decrypted by its recipient. The code violates this: the parsed header is written again and that text is used, so envelopes with other spacing or member order, and envelopes of this crate whose jwk has several custom members, are refused for all keys if the cipher rejects other associated data. It holds when the transmitted header is what this crate writes.", "quantifier": "all envelopes, headers, keys, map orders", "why_tests_cant": "envelopes of all other implementations", "anchors": ["src/messages/message_raw_crypto.rs:decrypt", "src/messages/helpers/receive.rs:receive_jwe"]}
{"id": "C71", "title": "passing keys makes receive insist on protection (violated)", "statement": "A message accepted by receive when a private key, a sender key or a verification key is passed was encrypted or signed. The code violates this: the plain text of any message with any from is accepted whatever keys are passed. It holds that an input with an iv is accepted only if it was opened with a passed private key and authenticated.", "quantifier": "all messages, senders, keys, map orders", "why_tests_cant": "all messages and keys", "anchors": ["src/messages/message.rs:Message::receive", "src/messages/helpers/receive.rs:get_message_type"]}
{"id": "C72", "title": "rotation claims are authenticated (violated)", "statement": "The claims returned by get_prior for a received message were authenticated by the previous DID. The code violates this: from_prior is unsigned JSON, so for any claims and any sender there is an input accepted with any keys that returns them. After seal and receive the claims are those the sealer put.", "quantifier": "all claims, senders, keys", "why_tests_cant": "all claims and keys", "anchors": ["src/messages/message.rs:Message::get_prior", "src/messages/headers/prior_claims.rs:PriorClaims"]}
{"id": "C73", "title": "recipient entries belong to their envelope (violated)", "statement": "A recipient entry (wrapped key) opens only in the envelope it was made for. The code violates this: for any two envelopes of the same sender for the same recipient and algorithm, the second with the recipients of the first is received as before. Opening an entry looks only at the algorithm and, to find the sender key, at skid.", "quantifier": "all pairs of envelopes, messages, keys", "why_tests_cant": "all pairs of envelopes", "anchors": ["src/messages/helpers/encryption.rs:decrypt_cek", "src/messages/helpers/receive.rs:receive_jwe"]}
{"id": "C74", "title": "a signed message is accepted only by those it is addressed to (violated)", "statement": "A signed message accepted from an envelope was addressed by its signer to the receiver. The code violates this: any third party can seal somebody's signed message for any key and it is accepted with the signer's key as the signer's message. The returned message still names the recipients and sender the signer named.", "quantifier": "all signed messages, third parties, keys, map orders", "why_tests_cant": "all messages and keys", "anchors": ["src/messages/message.rs:Message::receive", "src/messages/helpers/receive.rs:receive_jws"]}
{"id": "C75", "title": "verify_value agrees with verify (violated)", "statement": "verify_value of a parsed JSON value gives what verify gives for the text. The code violates this: for every signed message and other payload there is a text with two payload members that verify refuses for every key while verify_value accepts its value; and a signature written with an escape is refused by verify and accepted by verify_value. It holds for all documents with distinct member names, signatures written without escapes and numbers that read back as printed (true of all whole numbers of 64 bits, see C111).", "quantifier": "all documents, keys, map orders", "why_tests_cant": "all documents", "anchors": ["src/messages/message_raw_crypto.rs:Message::verify_value", "src/messages/message_raw_crypto.rs:Message::verify"]}
{"id": "C76", "title": "texts of rotation claims and problem reports", "statement": "from_str and try_from of PriorClaims accept exactly the UTF-8 JSON objects with one iss string and at most one sub (string or null), or arrays of both, and return these; what is written for claims and problems is read back unchanged.", "quantifier": "all texts, claims, problems", "why_tests_cant": "all texts", "anchors": ["src/messages/headers/prior_claims.rs:PriorClaims", "src/messages/problem_report.rs:Problem"]}
{"id": "C77", "title": "member order and spelling of the input do not matter (violated)", "statement": "Two texts that parse to documents differing only in the order of object members (at any depth), white space, string escapes and the way floats are written give the same result of receive, for all keys; member names must be distinct. The code violates this: signatures are read by borrowing from the text, so for every signed message, general or flat, the same document with one escaped character in the signature is refused under all keys. It holds for all other rewritings: order, white space, floats and escapes anywhere outside signature strings.", "quantifier": "all pairs of documents, keys, map orders", "why_tests_cant": "all permutations at all depths", "anchors": ["src/messages/message.rs:Message::receive", "src/messages/helpers/receive.rs:get_message_type"]}
{"id": "C78", "title": "to_string of algorithms and known problems gives their names (violated)", "statement": "KeyAlgorithm::to_string and KnownProblems::to_string give the registered name. The code violates this for every variant: the name is put in quotes, and the result is refused as alg and as problem code. Read as JSON it gives the variant back.", "quantifier": "all variants", "why_tests_cant": "not tested anywhere; a finite claim proved by the kernel for all variants", "anchors": ["src/messages/headers/jwk.rs:KeyAlgorithm", "src/messages/problem_report.rs:KnownProblems"]}
{"id": "C79", "title": "an expired message is refused (violated)", "statement": "A message whose expires_time has passed is not accepted. The code violates this: receive has no clock, and a message with any expires_time is accepted at every time with any keys. After seal and receive the times are those the sealer set, so the application can compare them.", "quantifier": "all messages, times, keys, map orders", "why_tests_cant": "all times and messages", "anchors": ["src/messages/message.rs:Message::timed", "src/messages/message.rs:Message::receive"]}
{"id": "C80", "title": "receive and verify agree on signed documents (violated)", "statement": "If verify accepts a document under a key then receive with that key returns the same message. The code violates this: for every signer and any two messages there is one document that verify accepts as the first and receive as the second, because receive first tries to read a signed document as a plain message and then verifies its body. It holds for all documents that cannot be read as a plain message.", "quantifier": "all signers, pairs of messages, documents, keys, map orders", "why_tests_cant": "all documents and pairs of messages", "anchors": ["src/messages/helpers/receive.rs:receive_jws", "src/messages/message_raw_crypto.rs:Message::verify"]}
{"id": "C81", "title": "unprotected headers of an envelope decide nothing (violated)", "statement": "What receive returns for an encrypted envelope does not depend on its unprotected header. The code violates this: an envelope without skid in the protected header gets a sender by adding one to the unprotected header. It holds when the protected header names algorithm and sender.", "quantifier": "all envelopes, unprotected headers, keys", "why_tests_cant": "all envelopes and headers", "anchors": ["src/messages/jwe.rs:Jwe", "src/messages/helpers/receive.rs:receive_jwe"]}
{"id": "C82", "title": "unknown members are ignored (violated)", "statement": "Members with unknown names do not change how a document is received. The code violates this: a plain message with an unknown member that is not a string is refused whatever the rest. It holds for encrypted documents (receive) and signed ones (verify, signatures written without escapes), wherever the member is inserted.", "quantifier": "all documents, names, values, positions, keys", "why_tests_cant": "all documents and member values", "anchors": ["src/messages/message.rs:Message::receive", "src/messages/headers/didcomm.rs:DidCommHeader"]}
{"id": "C83", "title": "what encrypt writes and when it fails", "statement": "For every message, cipher and key, encrypt has exactly these outcomes: it panics without recipient entries and without recipient, or when the cipher returns fewer than 16 bytes; it fails with the cipher's error, or in flat form without exactly one recipient entry; otherwise it writes an envelope whose protected header has the message's own header fields, the sender in skid, the encrypted type unless the message is a forward message, and without recipient entries the first recipient in kid; the associated data are that header in base64url, the plain text is the message's JSON, ciphertext and tag are what the cipher returned, split before the last 16 bytes.", "quantifier": "all messages, ciphers, keys, ivs, map orders", "why_tests_cant": "all ciphers, including ones returning short output, and all messages", "anchors": ["src/messages/message_raw_crypto.rs:Message::encrypt"]}
{"id": "C84", "title": "decrypt undoes encrypt for every pair of ciphers", "statement": "If the second cipher undoes the first for the given key then decrypt of what encrypt wrote returns the message; whatever error the second cipher returns, decrypt fails with PlugCryptoFailure and does not tell errors apart.", "quantifier": "all messages, pairs of ciphers, keys, map orders", "why_tests_cant": "all ciphers", "anchors": ["src/messages/message_raw_crypto.rs:Message::encrypt", "src/messages/message_raw_crypto.rs:Message::decrypt"]}
{"id": "C85", "title": "envelopes under the shared secret are received", "statement": "A message encrypted without recipient entries under the x25519 shared secret of sender and recipient is opened by receive with the recipient's private key and the sender's public key.", "quantifier": "all messages, keys, ivs, map orders", "why_tests_cant": "all messages and keys", "anchors": ["src/messages/message_raw_crypto.rs:Message::encrypt", "src/messages/helpers/receive.rs:receive_jwe"]}
{"id": "C86", "title": "sizes in a sealed envelope", "statement": "The ciphertext of a sealed envelope is exactly as long as the message's JSON text (there is no padding, the length shows), tag 16 bytes, iv 24, wrapped keys 32, ephemeral keys 32, the iv of recipient entries 24 or 12 by algorithm; one entry per recipient.", "quantifier": "all messages, keys, random choices", "why_tests_cant": "all message lengths", "anchors": ["src/messages/message.rs:Message::seal", "src/messages/helpers/encryption.rs:encrypt_cek"]}
{"id": "C87", "title": "bodies are read as application types", "statement": "An implementation of Shape written as documented gives, for the body that was set, what the type's own reader makes of the text, for every reader indifferent to member order and every document with distinct names whose numbers read back as printed (see C111); also after seal and receive.", "quantifier": "all readers, documents, messages, keys", "why_tests_cant": "all application types and texts", "anchors": ["src/messages/mod.rs:Shape", "src/messages/message.rs:Message::body", "src/messages/message.rs:Message::get_body"]}
{"id": "C88", "title": "any number of mediators", "statement": "Messages wrapped for any list of mediators, layer by layer as routed_by does, are unwrapped by the mediators in reverse order; each finds the next name and the bytes for it, the last finds what the sender started from. Wrapping succeeds whenever the mediators' keys are known, and routed_by is exactly one such layer around a sealed message.", "quantifier": "all lists of mediators, keys, payloads, map orders", "why_tests_cant": "chains of every length", "anchors": ["src/messages/message.rs:Message::routed_by", "src/messages/mediated.rs:Mediated"]}
{"id": "C89", "title": "other keys do not open an envelope", "statement": "A reader under whose key-encryption keys no recipient entry opens (another private key, or another public key taken for the sender's) gets the error `could not decrypt cek` and never a message or a panic; a recipient at any position gets the message if the entries before do not open for it.", "quantifier": "all messages, numbers of recipients, keys, map orders", "why_tests_cant": "all keys and positions", "anchors": ["src/messages/message.rs:Message::receive", "src/messages/helpers/receive.rs:receive_jwe", "src/messages/helpers/encryption.rs:decrypt_cek"]}
{"id": "C90", "title": "plugged in signers (violated)", "statement": "A message signed with code plugged into sign is accepted by verify when that code's own verification accepts. The code violates this: a header naming any algorithm other than the three built in ones is signed but verified under no key. With a built in label it is accepted exactly when the built in algorithm accepts the signature.", "quantifier": "all messages, signers, labels, keys, map orders", "why_tests_cant": "all signers and labels", "anchors": ["src/messages/message_raw_crypto.rs:Message::sign", "src/messages/message_raw_crypto.rs:Message::verify"]}
{"id": "C91", "title": "size of routed messages", "statement": "Routing a text through n mediators makes it at least 4^n times as long, since every layer writes the bytes it carries as a list of decimal numbers and encodes the result in base64url.", "quantifier": "all lists of mediators, payloads without control characters (every sealed text), keys", "why_tests_cant": "chains of every length", "anchors": ["src/messages/message.rs:Message::routed_by", "src/messages/mediated.rs:Mediated"]}
{"id": "C92", "title": "given keys make the DID resolver irrelevant", "statement": "If the sender's key is given to receive, or a key for every recipient to seal, seal_signed and routed_by (and the mediator's), then the result, error or panic is the same for every DID resolver: nothing that a resolver answers can redirect a message whose keys were given.", "quantifier": "all resolvers, inputs, messages, keys, random choices, map orders", "why_tests_cant": "all resolvers", "anchors": ["src/messages/message.rs:Message::seal", "src/messages/message.rs:Message::seal_signed", "src/messages/message.rs:Message::routed_by", "src/messages/message.rs:Message::receive", "src/messages/helpers/encryption.rs:generate_shared_for_recipient"]}
{"id": "C93", "title": "the build without resolver", "statement": "The crate built without the feature `resolve` returns exactly what the default build returns with a resolver that knows no DID, except that an envelope without skid is refused with DidResolveFailed; it opens no envelope without the sender's key and seals none without a key for every recipient; with the keys given both builds agree.", "quantifier": "all inputs, messages, keys, random choices, map orders", "why_tests_cant": "all inputs, and the tests run one build at a time", "anchors": ["src/messages/message.rs:Message::as_jwe", "src/messages/message.rs:Message::seal", "src/messages/message.rs:Message::receive", "src/messages/helpers/encryption.rs:generate_shared_for_recipient", "src/messages/helpers/receive.rs:receive_jwe"]}
{"id": "C94", "title": "envelopes of other implementations are read (violated)", "statement": "An encrypted envelope or signed document laid out as in RFC 7516, RFC 7515 and DIDComm v2 (entry headers with only a kid, an ephemeral key without key_ops and alg, a signature header with only a kid) is read like one made by this crate.", "quantifier": "all such documents, keys, primitives", "why_tests_cant": "all documents of other implementations; the tests read only documents made by this crate", "anchors": ["src/messages/message.rs:Message::receive", "src/messages/headers/jwk.rs:Jwk", "src/messages/headers/jwm.rs:JwmHeader", "src/messages/jwe.rs:Recipient"]}
{"id": "C95", "title": "exactly which documents are read", "statement": "A text is read as a message, an encrypted envelope or a signed document if and only if it is one JSON document whose members satisfy the schema of that type (required members present, none of the known members repeated, each of its kind, names among the registered ones, encoded members the base64url text of conforming documents) and whose numbers can be kept; likewise for keys, headers, entries, attachments, forward bodies and problem reports.", "quantifier": "all texts", "why_tests_cant": "an equivalence over all texts", "anchors": ["src/messages/message.rs:Message", "src/messages/jwe.rs:Jwe", "src/messages/jws.rs:Jws", "src/messages/headers", "src/messages/helpers/serialization.rs"]}
{"id": "C96", "title": "what is read is what the members say", "statement": "A text is read as the message (envelope, signed document) m if and only if it is a conforming document and every field of m holds what the member of its name says: the member's value when present, nothing or the default when absent or null, for members without a name of their own the last value given.", "quantifier": "all texts, messages, envelopes, signed documents", "why_tests_cant": "an equivalence over all texts and values", "anchors": ["src/messages/message.rs:Message", "src/messages/jwe.rs:Jwe", "src/messages/jws.rs:Jws", "src/messages/headers"]}
{"id": "C97", "title": "the ciphers open exactly what they seal", "statement": "With XChaCha20-Poly1305 and AES-256-GCM as standardised, the decrypter returns a message for a ciphertext if and only if the encryptor makes that ciphertext of the message under the same key, nonce and associated data; every message is sealed under keys and nonces of the right size, to 16 more bytes; a ciphertext with any other tag is refused, and so is an envelope whose tag was altered.", "quantifier": "all keys, nonces, associated data, messages, ciphertexts, envelopes", "why_tests_cant": "an equivalence over all byte strings", "anchors": ["src/crypto/encryptor.rs:CryptoAlgorithm::encryptor", "src/crypto/encryptor.rs:CryptoAlgorithm::decrypter", "src/messages/message.rs:Message::receive"]}
{"id": "C98", "title": "key agreement is multiplication on Curve25519", "statement": "With X25519 as standardised, both parties compute the same secret; the secret is the coordinate of the other's point multiplied by the private key in the group of the curve; two private keys have the same public key exactly if they agree up to the overwritten bits or are opposite.", "quantifier": "all private and public keys", "why_tests_cant": "all keys", "anchors": ["src/messages/helpers/encryption.rs:generate_shared_for_recipient", "src/messages/helpers/receive.rs:receive_jwe"]}
{"id": "C99", "title": "weak public keys are refused (violated)", "statement": "A public key with which every private key gives the same secret is refused: nothing is sealed for it, and no envelope that uses it as ephemeral and sender key is opened.", "quantifier": "all messages, private keys, envelopes", "why_tests_cant": "all private keys", "anchors": ["src/messages/helpers/encryption.rs:decrypt_cek", "src/messages/helpers/encryption.rs:generate_shared_for_recipient", "src/messages/message.rs:Message::seal", "src/messages/message.rs:Message::receive"]}
{"id": "C100", "title": "sealing and receiving with the standard algorithms", "statement": "With the algorithms as standardised (nothing assumed of ciphers, key agreement and hash) every well formed message for recipients whose public keys belong to private keys is sealed, and the recipient reads what the sender wrote.", "quantifier": "all messages, keys, random choices, map orders", "why_tests_cant": "all messages and keys", "anchors": ["src/messages/message.rs:Message::seal", "src/messages/message.rs:Message::receive", "src/crypto/encryptor.rs:CryptoAlgorithm::encryptor", "src/crypto/encryptor.rs:CryptoAlgorithm::decrypter"]}
{"id": "C101", "title": "what A256CBC encrypts can be decrypted (violated)", "statement": "What the A256CBC encryptor makes of a message is opened to it by the decrypter with the same associated data and refused with other. The code violates this: the decrypter panics on everything and the associated data is ignored. What holds: exactly keys of 32 and nonces of 16 bytes are taken, others are reported as such, and the ciphertext has whole blocks that a standard AES-256-CBC decryption opens to the message.", "quantifier": "all keys, nonces, messages, associated data", "why_tests_cant": "universal failure, and an inverse over all byte strings", "anchors": ["src/crypto/encryptor.rs:CryptoAlgorithm::encryptor", "src/crypto/encryptor.rs:CryptoAlgorithm::decrypter"]}
{"id": "C102", "title": "what is signed with ECDSA verifies", "statement": "With ES256 (P-256) and ES256K (secp256k1) as the standards define them: whatever nonces the signer draws, a message signed with a secret verifies under the public key of that secret, in the long and in the short encoding, and is received with it. Exactly the secrets of 32 bytes between one and the order less one sign; each has a public key and, for every message, a nonce that gives a signature.", "quantifier": "all secrets, nonces, messages, encodings", "why_tests_cant": "group law of the two curves over all secrets and nonces", "anchors": ["src/crypto/signer.rs:SignatureAlgorithm::signer", "src/crypto/signer.rs:SignatureAlgorithm::validator", "src/messages/message_raw_crypto.rs:Message::sign", "src/messages/message_raw_crypto.rs:Message::verify"]}
{"id": "C103", "title": "a signed text cannot be altered (violated for ES256)", "statement": "Nobody but the signer can make a second, different signed text that is accepted for the same message. The code violates this for ES256: negating the second half of the signature gives another text that verifies and is received. What holds: for ES256K the mirrored signature is refused, and the text with it; for EdDSA to a message and a first half at most one second half is accepted, under every key.", "quantifier": "all secrets, nonces, messages", "why_tests_cant": "universal malleability; needs the group law", "anchors": ["src/crypto/signer.rs:SignatureAlgorithm::signer", "src/crypto/signer.rs:SignatureAlgorithm::validator", "src/messages/message_raw_crypto.rs:Message::verify"]}
{"id": "C104", "title": "what is signed with EdDSA verifies", "statement": "With Ed25519 as RFC 8032 defines it: every secret of 32 bytes, followed by its public key, signs every message; the signed text verifies under that public key and is received with it, given or named in kid. Exactly the keys of 64 bytes whose second half is a point of the curve sign.", "quantifier": "all secrets, messages, map orders", "why_tests_cant": "group law of the curve, square roots and the encoding of points over all secrets", "anchors": ["src/crypto/signer.rs:SignatureAlgorithm::signer", "src/crypto/signer.rs:SignatureAlgorithm::validator", "src/messages/message_raw_crypto.rs:Message::sign", "src/messages/message_raw_crypto.rs:Message::verify", "src/messages/message.rs:Message::receive"]}
{"id": "C105", "title": "a signature is for one message and needs a secret (violated)", "statement": "A signature that is accepted under a public key is the signature of one message and cannot be made without a secret. The code violates this: the neutral element is taken for a public key, and under it every number less than the order gives 64 bytes that are accepted as the signature of every message. What holds: under the public key of a secret, a signature accepted for two messages makes their hashes agree modulo the order.", "quantifier": "all messages, numbers, secrets", "why_tests_cant": "universal forgery and a statement over all pairs of messages", "anchors": ["src/crypto/signer.rs:SignatureAlgorithm::signer", "src/crypto/signer.rs:SignatureAlgorithm::validator", "src/messages/message_raw_crypto.rs:Message::verify", "src/messages/message.rs:Message::receive"]}
{"id": "C106", "title": "a key whose halves do not match is refused (violated)", "statement": "The signer refuses an EdDSA key whose public half is not the public key of its secret half. The code violates this: every point is taken, and from one message signed with one secret and two public halves anybody computes a number that makes texts, for every message, that verify under the public key of the secret.", "quantifier": "all secrets, public halves, messages", "why_tests_cant": "universal key recovery; needs the arithmetic modulo the order", "anchors": ["src/crypto/signer.rs:SignatureAlgorithm::signer", "src/messages/message_raw_crypto.rs:Message::sign", "src/messages/message_raw_crypto.rs:Message::verify"]}
{"id": "C107", "title": "signing, sealing and receiving with the standard algorithms", "statement": "With all algorithms as standardised (nothing assumed of ciphers, key agreement, hashes and EdDSA): every well formed message for recipients whose public keys belong to private keys is signed and sealed, and the recipient reads what the sender wrote.", "quantifier": "all messages, keys, random choices, map orders", "why_tests_cant": "all messages and keys", "anchors": ["src/crypto/signer.rs:SignatureAlgorithm::signer", "src/crypto/signer.rs:SignatureAlgorithm::validator", "src/messages/message.rs:Message::seal_signed", "src/messages/message.rs:Message::receive"]}
{"id": "C108", "title": "the key of a did:key", "statement": "The DID of an Ed25519 key resolves to the public key of the X25519 secret that is made from the same secret; the DID of an X25519 key resolves to that key; a DID is read as a key exactly if it is made of it, so different keys have different DIDs.", "quantifier": "all secrets, keys, texts", "why_tests_cant": "base58 over all byte strings and the map between two curves over all secrets", "anchors": ["src/messages/helpers/encryption.rs:generate_shared_for_recipient", "src/messages/helpers/receive.rs:receive_jwe"]}
{"id": "C109", "title": "sealing and receiving with DIDs only", "statement": "With all algorithms as standardised and DIDs of the method key: a message from the owner of a DID to owners of DIDs is sealed with no public keys given, and the first recipient reads what the sender wrote with its private key only, directly or through a mediator who opens the outer envelope with its own; one secret for each party is enough to sign, seal, open and verify.", "quantifier": "all messages, secrets, DIDs, random choices, map orders", "why_tests_cant": "all messages and keys", "anchors": ["src/messages/message.rs:Message::seal", "src/messages/message.rs:Message::seal_signed", "src/messages/message.rs:Message::receive", "src/messages/message.rs:Message::routed_by", "src/messages/helpers/encryption.rs:generate_shared_for_recipient"]}
{"id": "C110", "title": "a key belongs to one DID (violated)", "statement": "Two DIDs that resolve to the same key for key agreement are the same. The code violates this: for every secret the DID of the mirror image of its public key and the DID of its X25519 key are two others with the same key, so an envelope does not tell for which of them it was made or from which of them it came. What holds: two DIDs of Ed25519 keys with the same key, not zero, are those of one point or of a point and its mirror image.", "quantifier": "all secrets, DIDs", "why_tests_cant": "universal over secrets; needs the map between the curves", "anchors": ["src/messages/helpers/encryption.rs:generate_shared_for_recipient", "src/messages/helpers/receive.rs:receive_jwe"]}
{"id": "C111", "title": "a number in a body keeps its value (violated)", "statement": "The number that the recipient reads in the body is the number that was set. The code violates this: serde_json without its feature float_roundtrip reads a number with a fraction or an exponent up to some units of the last place off, and every hop reads it again. 7.3037954186947e15 is set as 7303795418694700.0 and received as 7303795418694701.0; 6.374619365083466e161 becomes smaller at each of 66 successive writings and readings. What holds: the body received is the reading of the printed reading of the text; whole numbers of 64 bits and decimal numbers with a significand below 10^15, an exponent from -22 to 7 and a value below 10^15 or at least 10^16 are received with the value they were written with.", "quantifier": "all messages, bodies, numbers, keys, random choices, map orders", "why_tests_cant": "needs the arithmetic of f64 over all decimal numbers", "anchors": ["src/messages/message.rs:Message::set_body", "src/messages/message.rs:Message::as_raw_json", "src/messages/message.rs:Message::receive", "src/messages/message.rs:Message::seal"]}
{"id": "C112", "title": "what receive accepts, exactly", "statement": "receive returns a message exactly in these cases. The text is an object of neither an encrypted nor a signed kind and is that message. The text is signed and one of its signatures, checked in order with the given key or the key in its kid, vouches for the payload. The text is encrypted and opens with the given private key, and its content is a message, or is again signed and vouches for one. Verified and decrypted messages are written and read once more before they are returned, so they need a recipient and their numbers are those read the second time. Nothing else is accepted.", "quantifier": "all texts, keys, DID documents, map orders", "why_tests_cant": "an equivalence over all texts and all ways to be accepted", "anchors": ["src/messages/message.rs:Message::receive", "src/messages/helpers/receive.rs:get_message_type", "src/messages/helpers/receive.rs:receive_jwe", "src/messages/helpers/receive.rs:receive_jws"]}
{"id": "C113", "title": "a conversation is one thread (violated)", "statement": "Every message of a conversation made with reply_to carries the thread of the first one, so a reply shows which message it answers. The code violates this: a reply to a message without thid, with or without the decorator Thread::implicit, gets no thid and no decorator; replies to two different openers of one sender are equal, and in a conversation of any length, each message sealed and received, none has a thread. It holds if the opener has a thid: all later messages carry it, as header and in their decorator.", "quantifier": "all messages, conversations of any length, keys, random choices, map orders", "why_tests_cant": "conversations of every length", "anchors": ["src/messages/message.rs:Message::reply_to", "src/messages/headers/didcomm.rs:DidCommHeader::reply_to", "src/messages/headers/decorators.rs:Thread::is_implicit_reply", "src/messages/headers/decorators.rs:Thread::implicit", "src/messages/message.rs:Message::seal", "src/messages/message.rs:Message::receive"]}
{"id": "C114", "title": "the length of an envelope shows the length of the message and nothing else", "statement": "Two messages with equal protected header, sender and recipients give envelopes of equal length exactly when the messages, written as JSON without recipient entries, are equally long in bytes; keys, nonces, ephemeral keys and map orders do not change the length. There is no padding: the length of a message shows to the byte.", "quantifier": "all messages, keys, random choices, map orders, primitives that obey the stated laws", "why_tests_cant": "all pairs of messages and keys", "anchors": ["src/messages/message.rs:Message::seal", "src/messages/message_raw_crypto.rs:Message::encrypt", "src/messages/helpers/encryption.rs:encrypt_cek"]}
{"id": "C115", "title": "names of recipients and the iv of an envelope cannot be changed unnoticed (violated)", "statement": "An envelope in which the recipient entries carry other names, or which has another iv, is refused. The code violates this: name, algorithm, key type, curve, use and operations in the entries are never read, so that an envelope with all of them rewritten is received alike with all keys; and of an envelope for A256GCM all bytes of the iv after the twelfth can be replaced. What receive looks at, exactly: the protected header, the algorithm and sender name found by the getters, the ephemeral key, nonce, tag and wrapped key of the entries in their order, and ciphertext, tag and nonce as bytes.", "quantifier": "all sealed envelopes, rewritings of entries, ends of the iv, keys, map orders, primitives", "why_tests_cant": "all envelopes and all rewritings of their entries", "anchors": ["src/messages/helpers/receive.rs:receive_jwe", "src/messages/helpers/encryption.rs:decrypt_cek", "src/crypto/encryptor.rs:decrypter", "src/messages/jwe.rs:get_iv"]}
{"id": "C116", "title": "everyone who accepts a text reads the same message", "statement": "Two receivers who accept the same text, with whatever keys and map orders, read the same message, if the text is plain or signed; if it is encrypted, if they get the same bytes out of it, in particular if they find the same content key and the header has a fixed order. Keys decide whether a text is accepted and never what it says.", "quantifier": "all texts, pairs of receivers, keys, map orders, primitives that obey the stated laws", "why_tests_cant": "all texts and all pairs of keys", "anchors": ["src/messages/message.rs:Message::receive", "src/messages/message_raw_crypto.rs:Message::verify", "src/messages/helpers/receive.rs:receive_jws", "src/messages/helpers/receive.rs:receive_jwe"]}
{"id": "C117", "title": "an envelope can be made by its recipients (repudiation)", "statement": "What seal returns can be made byte for byte by the holders of the private keys of all recipients, who need of the sender only the public key: an unsigned envelope is no evidence, for a third party, of who wrote it. In particular whoever gets hold of the private key of a recipient can address to that recipient, in the name of any sender with a known public key, envelopes with any message, and receive accepts them.", "quantifier": "all messages, numbers of recipients, keys, random choices, map orders, primitives that obey the stated laws", "why_tests_cant": "all messages and keys of sender and recipients", "anchors": ["src/messages/message.rs:Message::seal", "src/messages/message.rs:Message::receive", "src/messages/helpers/encryption.rs:encrypt_cek", "src/messages/helpers/encryption.rs:generate_kek"]}
{"id": "C118", "title": "the list of recipients an envelope shows cannot be changed unnoticed (violated)", "statement": "The list of recipients shown by a sealed envelope cannot be changed without the remaining recipients noticing: an envelope from which entries of others were removed, to which entries were added or whose form was changed from general to flattened is not received. The code violates this: the entries are not authenticated. What holds: what is received reports the entries the sender made, and without an entry that opens nothing is received.", "quantifier": "all sealed messages, numbers of recipients, lists of entries, keys, map orders, primitives that obey the stated laws", "why_tests_cant": "all envelopes and all changes to their entries", "anchors": ["src/messages/message.rs:Message::receive", "src/messages/message.rs:Message::seal", "src/messages/helpers/receive.rs:receive_jwe", "src/messages/message_raw_crypto.rs:Message::encrypt"]}
{"id": "C119", "title": "altered ciphertexts and headers are accepted only under few hash keys", "statement": "With XChaCha20-Poly1305 and AES-256-GCM as standardised: take two envelopes that agree in iv, algorithm, sender name and entries and differ in the protected header or the ciphertext, whatever their tags. There is a set of hash keys, fixed by the two envelopes, such that receive accepts both with the same keys only if the hash key that belongs to content key and iv is in the set. The set has at most eight elements per block of 16 bytes for XChaCha20-Poly1305 (of 2^106 hash keys) and at most one per block for AES-256-GCM (of 2^128).", "quantifier": "all pairs of envelopes, headers, ciphertexts, tags, keys, nonces, map orders", "why_tests_cant": "all pairs of different envelopes and all keys", "anchors": ["src/crypto/encryptor.rs:decrypter", "src/crypto/encryptor.rs:encryptor", "src/messages/message_raw_crypto.rs:Message::decrypt", "src/messages/helpers/receive.rs:receive_jwe"]}
{"id": "C120", "title": "an error of receive names its cause", "statement": "The errors of receive that name a cause are returned exactly if that cause is there: a missing private key, algorithm or sender name, a sender name that does not resolve or has no key, no entry that opens for the reader, a missing header or tag, and, as PlugCryptoFailure, content that the cipher refuses although the content key was found. All of them are about envelopes; texts that are not taken for envelopes give only errors of form, of signatures and of base64, and there are no others.", "quantifier": "all texts, keys, resolvers, ciphers, map orders", "why_tests_cant": "all texts and all keys; the converse needs that nothing else returns the error", "anchors": ["src/messages/message.rs:Message::receive", "src/messages/helpers/receive.rs:receive_jwe", "src/messages/helpers/receive.rs:receive_jws", "src/messages/helpers/receive.rs:get_message_type", "src/messages/helpers/encryption.rs:decrypt_cek", "src/messages/message_raw_crypto.rs:Message::decrypt", "src/error.rs:Error"]}
{"id": "C121", "title": "an ES256 or ES256K signature is for one message (violated)", "statement": "With ES256 and ES256K as standardised: a signature that is accepted under a public key is accepted for one message only, so that whoever holds a signed text can hold its signer to it. The code violates this: a signer can choose a secret with one signature for two messages. What holds: under a given key two messages share a signature only if their hashes agree or the secret becomes public.", "quantifier": "all pairs of messages, all public keys of secrets, all signatures, both algorithms, map orders", "why_tests_cant": "all pairs of messages and all keys", "anchors": ["src/crypto/signer.rs:SignatureAlgorithm::signer", "src/crypto/signer.rs:SignatureAlgorithm::validator", "src/messages/message_raw_crypto.rs:Message::verify", "src/messages/message.rs:Message::receive"]}
{"id": "C122", "title": "an ES256 or ES256K signature is of one key (violated)", "statement": "With ES256 and ES256K as standardised: a signed text verifies under the public key of its signer and under no other, so that the key that verifies a text tells who signed it. The code violates this: a second key is computed from the text and the first. What holds: no more than two public keys of secrets accept a signature.", "quantifier": "all messages, signatures, public keys of secrets, both algorithms, map orders", "why_tests_cant": "all signed messages and all keys", "anchors": ["src/crypto/signer.rs:SignatureAlgorithm::signer", "src/crypto/signer.rs:SignatureAlgorithm::validator", "src/messages/message_raw_crypto.rs:Message::verify", "src/messages/message.rs:Message::receive"]}
{"id": "C123", "title": "an envelope has one content (violated)", "statement": "With the standardised ciphers: all recipients who open an envelope get the same bytes out of it, so that what one recipient reads is what the others read. The code does not commit to the content key: whatever header, iv and entries, if two readers get content keys with different hash keys there is a ciphertext and a tag that both accept; before the last 16 bytes (AES-256-GCM) or 256 bytes (XChaCha20-Poly1305) the author chooses, at each place, what the one reads or what the other reads, and the contents differ if the key streams do. What holds: for given keys and a given beginning of the ciphertext there is at most one such last block of 2^128 (at most eight with XChaCha20-Poly1305).", "quantifier": "all envelopes, headers, ivs, entries, pairs of readers and content keys, all contents chosen by the author", "why_tests_cant": "all pairs of keys and all contents", "anchors": ["src/crypto/encryptor.rs:decrypter", "src/messages/message_raw_crypto.rs:Message::decrypt", "src/messages/helpers/receive.rs:receive_jwe"]}
{"id": "C124", "title": "an EdDSA signature is of one key (violated)", "statement": "With EdDSA as standardised: a signature that is accepted under a public key for a message is accepted under no other public key, so that it shows who signed. The code takes the neutral element for a public key, in four different spellings, and one signature is accepted under all four for every message. What holds: a signature that is accepted under the public key of a secret is accepted under that of another secret exactly if the products of hash and secret scalar agree modulo the order, where each hash is taken over its public key; and keys of small order, which belong to no secret, do not accept it unless the hash is a multiple of the order.", "quantifier": "all signatures, inputs, secrets and public keys, all messages", "why_tests_cant": "all pairs of keys, all signatures", "anchors": ["src/crypto/signer.rs:SignatureAlgorithm::validator", "src/messages/message_raw_crypto.rs:Message::verify", "src/messages/helpers/receive.rs:receive_jws"]}
{"id": "C125", "title": "a private key enters only through the secrets it agrees on", "statement": "What seal, seal_signed and routed_by produce depends on the private key of the sender only through the X25519 secrets with the public keys of the recipients (and of the mediator), and what receive returns depends on the private key of the recipient only through the secrets with the key of the sender and the ephemeral keys of the envelope: two private keys with the same secrets give the same text, message or failure. With X25519 as standardised, private keys that differ only in the five overwritten bits are interchangeable throughout, and private keys with one public key are interchangeable towards public keys of private keys.", "quantifier": "all private keys of 32 bytes, messages, recipients, random choices, texts and keys", "why_tests_cant": "a relation between two runs, over all inputs", "anchors": ["src/messages/message.rs:Message::seal", "src/messages/message.rs:Message::receive", "src/messages/helpers/encryption.rs:encrypt_cek", "src/messages/helpers/encryption.rs:decrypt_cek"]}
{"id": "C126", "title": "the entry of a recipient is about that recipient only", "statement": "The entry that a sealed envelope has for a recipient is fixed by the algorithm name, the DID and key of that recipient, the secrets that the sender's private key has with that key and the random choices for that recipient. Nothing of the message, its headers or the other recipients goes into it: in two envelopes with whatever messages, other recipients and keys, at whatever position in the list, the entries for one recipient are the same if these are.", "quantifier": "all pairs of messages, recipients, keys, private keys, random choices, positions and map orders", "why_tests_cant": "a relation between two runs, over all inputs", "anchors": ["src/messages/message.rs:Message::seal", "src/messages/helpers/encryption.rs:encrypt_cek"]}
{"id": "C127", "title": "ES256 and ES256K signatures are a function of secret and hash", "statement": "With ES256 and ES256K a message is signed with the nonce that RFC 6979 derives from the secret and the hash, and with no other input: the bytes are those of SEC 1 for the first value of the generator in range; there are such bytes exactly if the secret is in range, the generator gives a nonce and neither half is zero; equal hashes modulo the order get equal signatures. What is signed this way verifies under the public key of the secret and is received, and everything that holds for an arbitrary source of nonces holds of it.", "quantifier": "all secrets, bytes to sign, messages and map orders, both curves", "why_tests_cant": "the generator loops without bound and the hashes are unbounded in number; tests see a few vectors", "anchors": ["src/crypto/signer.rs:SignatureAlgorithm::signer", "src/messages/message_raw_crypto.rs:Message::sign", "src/messages/message_raw_crypto.rs:Message::verify"]}
{"id": "C128", "title": "a nonce used for two messages gives the secret away", "statement": "Whoever signs two messages of different hash with one secret and one nonce publishes the secret: the two ES256 or ES256K signatures have the same first half and the secret is one of two numbers computed from messages and signatures. From the outside: two accepted signatures with the same first half (not in the narrow range below the difference of the moduli) and second halves that differ by more than the sign give the secret. So the signatures of this library are safe only because the nonce depends on the hash (C127).", "quantifier": "all secrets, sources of nonces, pairs of messages and signatures, both curves", "why_tests_cant": "an algebraic fact over all keys and messages; tests cannot repeat a nonce on purpose through the API", "anchors": ["src/crypto/signer.rs:SignatureAlgorithm::signer", "src/crypto/signer.rs:SignatureAlgorithm::validator"]}
{"id": "C129", "title": "an iv used twice shows how two messages differ", "statement": "With AES-256-GCM and XChaCha20-Poly1305 as standardised: if encrypt is called twice with the same key under ivs that agree in what the cipher uses of them (12 of the 24 bytes for AES-256-GCM), the two published ciphertexts have the lengths of the two message texts and differ exactly in the bits in which the texts differ, so that either message gives the other away as far as they overlap. (seal always uses the same key.)", "quantifier": "all messages, keys, ivs, map orders, both ciphers", "why_tests_cant": "over all keys and messages; ivs do not repeat in tests", "anchors": ["src/messages/message_raw_crypto.rs:Message::encrypt", "src/crypto/encryptor.rs:encryptor"]}
{"id": "C130", "title": "a hash key gives tags for every text", "statement": "With AES-256-GCM and XChaCha20-Poly1305 as standardised: who knows the hash key that belongs to a content key (AES-256-GCM) or to content key and iv (XChaCha20-Poly1305) can make, from one accepted text and without the key, an accepted text with any other associated data and ciphertext; what is read differs in the bits in which the ciphertexts differ. Two different texts under one key and iv leave at most one hash key per block (eight with XChaCha20-Poly1305), so that an iv used twice gives the power to forge, with AES-256-GCM for every text under that key.", "quantifier": "all keys, ivs, associated data, ciphertexts, tags and envelopes", "why_tests_cant": "the forged texts are not enumerable and the hash key is a secret intermediate value", "anchors": ["src/crypto/encryptor.rs:decrypter", "src/messages/message_raw_crypto.rs:Message::decrypt"]}
{"id": "C131", "title": "two EdDSA signatures with one first half give the secret away", "statement": "With Ed25519 as RFC 8032 defines it: two signatures that are accepted under the public key of a secret, for messages of different hash, and have the same first half determine the scalar of the secret modulo the order by a formula in messages, signatures and public key; with that number anybody signs every message, and the texts verify and are received.", "quantifier": "all secrets, pairs of messages and signatures, all messages signed afterwards", "why_tests_cant": "an algebraic fact over all keys and messages; the library never repeats a first half in tests", "anchors": ["src/crypto/signer.rs:SignatureAlgorithm::validator", "src/messages/message_raw_crypto.rs:Message::verify"]}
{"id": "C132", "title": "fourteen public keys, and no others, hide the private key", "statement": "With X25519 as standardised, the secret with a public key is zero exactly if the key is one of fourteen strings of 32 bytes, whatever the private key; these are also exactly the keys with which all private keys give one secret. With every other key, on the curve or on its twist, two private keys give the same secret exactly if they agree in the bits that are not overwritten or are opposite modulo the order of the group, and two private keys give the same secrets throughout exactly if they agree in these bits. What is sealed for weak keys does not depend on the private key of the sender, and an envelope with weak keys only is received alike with every private key.", "quantifier": "all private keys and public keys, all messages, envelopes", "why_tests_cant": "2^256 keys; needs the number of points of the curve and of its twist and that their large factors are prime", "anchors": ["src/messages/helpers/encryption.rs:generate_shared_for_recipient", "src/messages/helpers/encryption.rs:decrypt_cek", "src/messages/message.rs:Message::seal", "src/messages/message.rs:Message::receive"]}
{"id": "C133", "title": "every key and every signature for ES256 and ES256K comes from a secret", "statement": "With ES256 and ES256K as standardised: the public keys with which the validator decides anything are exactly the public keys of secrets, each of exactly one, in the short or the long form, so that there are twice as many as numbers between zero and the order. The signatures that are accepted under a key are exactly those that its secret makes with some nonce. What verifies under a key that is not one for EdDSA carries such a signature of the message that is returned.", "quantifier": "all byte strings as keys, all inputs and signatures, all documents", "why_tests_cant": "2^256 keys; needs that the number of points of both curves is the prime order of the base point", "anchors": ["src/crypto/signer.rs:SignatureAlgorithm::validator", "src/crypto/signer.rs:SignatureAlgorithm::signer", "src/messages/message_raw_crypto.rs:Message::verify"]}
{"id": "C134", "title": "under every EdDSA key but fourteen a signature is for one message", "statement": "With EdDSA as standardised: the public keys of small order are fourteen strings of 32 bytes, all of which the code takes. Under every other key, whether it belongs to a secret or not, a signature that is accepted for one message is accepted for another exactly if the hashes agree modulo the order. Under the fourteen it is accepted for another exactly if the hashes agree modulo a divisor of eight, and signatures made without a secret are accepted exactly if that number divides the hash. To every key belongs one number, zero for the fourteen only, and whatever is accepted is, but for points of small order, what this number makes of some nonce.", "quantifier": "all byte strings as keys, all messages and signatures", "why_tests_cant": "2^255 keys; needs the number of points of the curve and all points of order eight", "anchors": ["src/crypto/signer.rs:SignatureAlgorithm::validator", "src/messages/message_raw_crypto.rs:Message::verify"]}
{"id": "C135", "title": "every EdDSA signature accepted under the public key of a secret comes from the secret", "statement": "With EdDSA as standardised: the signatures accepted under the public key of a secret for an input are exactly those that the secret scalar makes with a nonce less than the order, so that there are exactly as many; what verifies under the key carries such a signature of the message that is returned. Two secrets have the same public key exactly if they have the same scalar. To every key that is taken belong a number and a divisor of eight, and what the number makes is accepted exactly if the divisor divides the hash; where the divisor is not one the key belongs to no secret, and there are such keys beside the weak ones.", "quantifier": "all secrets, all byte strings as keys, all inputs, signatures and documents", "why_tests_cant": "2^252 nonces for each message; needs the number of points of the curve", "anchors": ["src/crypto/signer.rs:SignatureAlgorithm::validator", "src/crypto/signer.rs:SignatureAlgorithm::signer", "src/messages/message_raw_crypto.rs:Message::verify"]}
{"id": "C136", "title": "the numbers of a body stay near those of its text", "statement": "If all numbers of a body are 64-bit integers, zero, or of a size from 10^-285 to 10^299, with any number of digits, the body can be set, sealed and received, and whoever receives it reads each number with a relative error of at most 3/2^49; if the message is passed on n times as plain JSON it arrives every time and the error is at most (n+1)/2^49, for n below 2^48. Integers do not change.", "quantifier": "all messages, all bodies, all numbers in the range with any number of digits, all keys, any number of hops", "why_tests_cant": "the numbers do change (C111), so that no test on a sample bounds by how much; three roundings when reading, one when writing, and digits that do not fit 64 bits are dropped", "anchors": ["src/messages/message.rs:Message::body", "src/messages/message.rs:Message::as_raw_json", "src/messages/message.rs:Message::receive", "src/messages/message.rs:Message::seal"]}
{"id": "C137", "title": "a number that does not fit is refused (violated)", "statement": "A number in a body that is too large for a 64-bit float is refused, wherever it stands, when the body is set and when a document is received; and no number that is not zero is read as zero.", "quantifier": "all messages, all documents, all numbers with any number of digits and any exponent, all keys, all places in the document", "why_tests_cant": "exponents overflow the 32-bit exponent of the reader as well, digits are dropped and the scale is divided in steps; a test tries a few exponents", "anchors": ["src/messages/message.rs:Message::receive", "src/messages/message.rs:Message::body"]}
{"id": "C138", "title": "a signed document is checked with at most one check per signature (violated)", "statement": "When a text is received, each signature of the document is checked at most once and each entry of an envelope is tried at most once, so the work grows in proportion to the text.", "quantifier": "all texts, any number of signatures and entries, all keys", "why_tests_cant": "the number of checks follows from two nested loops in different files; a test uses one or two signatures, where the square is not visible", "anchors": ["src/messages/message.rs:Message::receive", "src/messages/message_raw_crypto.rs:Message::verify"]}
{"id": "C139", "title": "what could be read can be read again", "statement": "Whatever numbers a body has, if it can be set then every hop can read what the hop before it printed, without end, and a receiver of the sealed message reads it; a message that was received from any text, has a recipient and is not of an encrypted or signed type can be stored and received again for ever, and only the numbers of its body can change.", "quantifier": "all messages, all texts, all numbers, all keys, all map orders, any number of hops", "why_tests_cant": "each hop can change the numbers, the largest float is read with an error and could be printed as a number that the next hop refuses; no test can follow endless sequences", "anchors": ["src/messages/message.rs:Message::receive", "src/messages/message.rs:Message::body", "src/messages/message.rs:Message::as_raw_json", "src/messages/message.rs:Message::seal"]}
{"id": "C140", "title": "the numbers of a body settle (violated)", "statement": "However often a message is passed on, from some hop on the numbers of its body no longer change.", "quantifier": "all messages, all bodies, all numbers, endless sequences of hops, all map orders", "why_tests_cant": "the number must be followed over endlessly many hops, and whether two floats are read as each other depends on the last digit of both", "anchors": ["src/messages/message.rs:Message::receive", "src/messages/message.rs:Message::body", "src/messages/message.rs:Message::as_raw_json"]}
{"id": "C141", "title": "the numbers of a body keep their order (violated)", "statement": "If one number of a body is smaller than another, or equal to it, it is so too in the message whose body is set and in the message that is received.", "quantifier": "all messages, all bodies, all pairs of numbers, all keys, any number of hops", "why_tests_cant": "all pairs of numbers; those that change places differ in the last of 16 digits", "anchors": ["src/messages/message.rs:Message::body", "src/messages/message.rs:Message::seal", "src/messages/message.rs:Message::receive", "src/messages/message.rs:Message::as_raw_json"]}
{"id": "C142", "title": "an envelope is not accepted by its own sender as coming from its recipient (violated)", "statement": "If a party encrypts a message for another and the envelope is sent back to it, it does not receive the message as one of the other's.", "quantifier": "all messages, all keys of sender and recipient, all ephemeral keys", "why_tests_cant": "all keys and all envelopes; a test that the message comes back from the recipient's own key does not show that the sender's key opens it too", "anchors": ["src/messages/helpers/receive.rs:receive_jwe", "src/messages/message.rs:Message::receive", "src/messages/message_raw_crypto.rs:Message::encrypt", "src/messages/helpers/encryption.rs:generate_kek"]}
{"id": "C143", "title": "routing hides message and recipient, and protects both (violated)", "statement": "Whoever sees a message on its way to a mediator, and the mediators themselves, can neither read the message and the name of its recipient nor put another message in its place.", "quantifier": "all messages, all keys, any number of mediators, all observers", "why_tests_cant": "all messages and all numbers of mediators; a test of routing shows that the message arrives, not who else can read or replace it", "anchors": ["src/messages/message.rs:Message::routed_by", "src/messages/message.rs:Message::seal", "src/messages/message_raw_crypto.rs:Message::decrypt", "src/messages/message_raw_crypto.rs:Message::encrypt"]}
{"id": "C144", "title": "a DID is resolved once per call (violated)", "statement": "Sealing and receiving resolve each DID once, so that everything derived from a DID within one call is derived from one document.", "quantifier": "all messages, all envelopes, all sequences of answers of the resolver", "why_tests_cant": "all sequences of answers: a test resolver answers the same every time, and the number of calls is not visible in the result", "anchors": ["src/messages/message.rs:Message::seal", "src/messages/message.rs:Message::receive", "src/messages/helpers/receive.rs:receive_jwe", "src/messages/helpers/encryption.rs:encrypt_cek", "src/messages/helpers/encryption.rs:generate_kek"]}
{"id": "C145", "title": "an attachment that does not match its hash is refused (violated)", "statement": "The hash, the signature and the size an attachment claims are compared with its content: an attachment that does not match them is refused on receiving or on reading, and linked data always has a hash.", "quantifier": "all messages, all lists of attachments, plain, signed and sealed", "why_tests_cant": "all attachments: a test compares one hash with one content, but absence of any check for all values of the claims needs a proof", "anchors": ["src/messages/attachment.rs:Message::deserialize_attachments", "src/messages/attachment.rs:AttachmentDataBuilder::with_hash", "src/messages/message.rs:Message::receive"]}
{"id": "C146", "title": "a failure of the resolver is reported as such (violated)", "statement": "If a DID that is needed cannot be resolved, sealing and receiving say so, and do not blame the key or the envelope.", "quantifier": "all messages, all sealed envelopes, all readers, all sequences of answers of the resolver", "why_tests_cant": "all sequences of answers: the failure has to come between two calls inside one call of receive, which a test resolver does not arrange", "anchors": ["src/messages/message.rs:Message::seal", "src/messages/message.rs:Message::receive", "src/messages/helpers/receive.rs:receive_jwe", "src/messages/helpers/encryption.rs:generate_kek"]}
{"id": "C147", "title": "flattened and general form are read alike", "statement": "An envelope with one entry and a document with one signature are received with the same outcome in flattened and in general form; if a list is present the flattened members are not looked at.", "quantifier": "all texts that are read as an envelope or as a signed document, all keys, all resolvers", "why_tests_cant": "all envelopes and all keys, including those that are refused: a test compares the two forms of one good envelope", "anchors": ["src/messages/message.rs:Message::receive", "src/messages/message_raw_crypto.rs:Message::verify", "src/messages/message_raw_crypto.rs:Message::decrypt", "src/messages/helpers/receive.rs:receive_jwe"]}
{"id": "C148", "title": "protected documents can be nested (violated)", "statement": "A signed document in an encrypted envelope, an envelope in an envelope, and an envelope in a signed document, as in DIDComm v2, are received by whoever has the keys.", "quantifier": "all envelopes that are received, all signed documents and all sealed envelopes put in place of their content, all keys", "why_tests_cant": "all contents and all keys: a test of seal_signed shows the one nesting that the crate makes itself, in which the signed document is carried in the body of a message", "anchors": ["src/messages/message.rs:Message::receive", "src/messages/message.rs:Message::seal_signed", "src/messages/message_raw_crypto.rs:Message::decrypt", "src/messages/message_raw_crypto.rs:Message::verify", "src/messages/helpers/receive.rs:receive_jwe"]}
{"id": "C149", "title": "a received message can be passed on any number of times", "statement": "Whoever received a message in an envelope can give it a new DIDComm header with set_didcomm_header, seal it and send it on. After any number of hands type, algorithm, body and attachments are those of the start and the header is the last one given. A message that asks for no encryption is not sealed before as_jwe is called, and the recipients have to be replaced with the header: the setter to keeps the former ones, so that sealing with the key of the new recipient alone is refused.", "quantifier": "all chains of parties of any length, all headers and keys on the way, all messages that can be written and read back, all texts the first of them was received from", "why_tests_cant": "chains have any length and every step adds a header, recipient entries and an order of maps; a test follows one step", "anchors": ["src/messages/message.rs:Message::set_didcomm_header", "src/messages/message.rs:Message::seal", "src/messages/message.rs:Message::receive", "src/messages/message.rs:Message::to"]}
{"id": "C150", "title": "an object in a body stays that object (violated)", "statement": "Whatever names the members of an object in a body have, the body is set, written and read as that object.", "quantifier": "all texts, all messages, all contents of the string, all orders of members", "why_tests_cant": "one name among all strings makes the difference, and no test of the crate uses it", "anchors": ["src/messages/message.rs:Message::body", "src/messages/message.rs:Message::receive", "src/messages/message.rs:Message::get_body"]}
{"id": "C151", "title": "messages without the name of RawValue arrive in the build as it is", "statement": "With the feature raw_value of serde_json enabled, a message in whose body no object begins with the name of RawValue is received unchanged by every recipient, whether it is sent plain, signed, sealed, signed and sealed, or through a mediator.", "quantifier": "all such messages, all recipients, all keys, all randomness, all orders of members", "why_tests_cant": "needs all bodies and all envelopes; the name is looked for each time a message on the way is read", "anchors": ["src/messages/message.rs:Message::receive", "src/messages/message.rs:Message::seal", "src/messages/message.rs:Message::seal_signed", "src/messages/helpers/receive.rs:receive_jwe", "src/messages/helpers/receive.rs:receive_jws", "src/messages/message.rs:Message::routed_by"]}
{"id": "C152", "title": "a text stands for one message", "statement": "If two messages are written as the same text, plain, signed, sealed or signed and sealed, by whomever and with whatever keys and random choices, they are the same message, and a text is of one of these kinds only.", "quantifier": "all pairs of messages, all pairs of keys, recipients, random choices and orders of members", "why_tests_cant": "a claim about all pairs of messages; two messages with one text would have to be found", "anchors": ["src/messages/message.rs:Message::as_raw_json", "src/messages/message.rs:Message::seal", "src/messages/message.rs:Message::seal_signed", "src/messages/message_raw_crypto.rs:Message::sign"]}
{"id": "C153", "title": "the depth of a body is limited (violated)", "statement": "The body of a message that was set or received is at most as deep as the recursion limit of serde_json allows, so that it can be written and read again.", "quantifier": "all texts, all messages, all depths", "why_tests_cant": "the limit holds for every text one would think of; the exception is one name among all strings", "anchors": ["src/messages/message.rs:Message::body", "src/messages/message.rs:Message::receive", "src/messages/helpers/receive.rs:receive_jwe"]}
{"id": "C154", "title": "raw values change nothing but bodies", "statement": "With the feature raw_value of serde_json, which Cargo.toml asks for, nothing is accepted that was not authenticated: a text that is read as a message, is verified or is taken for an envelope is so without the feature, and only bodies are read differently; signed texts and envelopes are accepted under the same conditions on what is read, and there are no further panics. A message whose body the feature turns into a signed document is accepted with it and refused without.", "quantifier": "all texts, all keys, all primitives, all map orders", "why_tests_cant": "that nothing more is accepted is a claim about all texts", "anchors": ["src/messages/message.rs:Message::receive", "src/messages/helpers/receive.rs:get_message_type", "src/messages/helpers/receive.rs:receive_jws", "src/messages/helpers/receive.rs:receive_jwe"]}
{"id": "C155", "title": "what was read is read alike or not at all", "statement": "With the feature raw_value of serde_json, a message that was read or received, with numbers that are printed as they are read, is read again from its own text exactly if it has a recipient, its body is at most 126 levels deep and no object in its body begins with the name that serde_json reserves for raw values; whoever reads it then has the same message.", "quantifier": "all texts, all messages read from them, all keys, all map orders", "why_tests_cant": "that no text is read once as one message and then as another is a claim about all texts", "anchors": ["src/messages/message.rs:Message::receive", "src/messages/message.rs:Message::get_body"]}
