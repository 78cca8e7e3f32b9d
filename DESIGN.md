# Formal model of didcomm-rs: design

The subject is the Rust crate `didcomm-rs` in `/repo` (read as text, never built or changed).
The model is in Lean 4 under `lean/Verif/`.  `properties.jsonl` lists the properties, `MANIFEST.json`
maps each property to theorems, `seeded/LOG.jsonl` records the wrong-program tests.

## 1. Shape of the model

Everything is a total, computable Lean function.  A Rust call that can fail returns
`Res α = ok a | err e | panic`, so `unwrap()`, slice indexing, `array_ref!`, `from_slice` and
`todo!()` are visible outcomes and not side conditions.

| layer | Lean module | Rust |
|---|---|---|
| results, errors | `Verif.Model.Basic` | `src/error.rs`, `src/result.rs` |
| base64url, hex, UTF-8 | `Verif.Model.Base64`, `.Hex`, `.Utf8` | crates `base64_url`/`base64`, `hex`, `std::str` |
| JSON text (print, parse) | `Verif.Model.Json` | crate `serde_json` |
| `HashMap<String,_>` and `serde_json::Value` | `Verif.Model.HMap`, `.Map`, `.Value` | std, `serde_json` |
| derived (de)serializers | `Verif.Model.Serde`, `.Headers`, `.MessageSerde`, `.Envelope` | the `#[derive(Serialize, Deserialize)]` types |
| cryptographic primitives, label tables | `Verif.Model.Crypto` | `src/crypto/*.rs`; primitives are parameters, see section 3 |
| the content key | `Verif.Model.ChaCha` | crate `rand_chacha` with the constant seed of `seal` |
| message API, rotation claims | `Verif.Model.Message` | `src/messages/message.rs`, `src/messages/headers/*.rs` |
| attachments, invitations, threads, problems | `Verif.Model.Attachment` | `attachment.rs`, `out_of_band.rs`, `decorators.rs`, `problem_report.rs` |
| key wrapping, key derivation, DID URLs | `Verif.Model.Encryption` | `src/messages/helpers/encryption.rs` |
| sealing, signing, receiving, routing, external crypto | `Verif.Model.Secure` | `message.rs`, `message_raw_crypto.rs`, `helpers/receive.rs`, `mediated.rs` |
| counting the signature checks and the tried entries | `Verif.Model.Cost` | `message_raw_crypto.rs`, `helpers/receive.rs` |
| a resolver whose answers change, and the number of calls | `Verif.Model.Resolver` | `message.rs`, `helpers/encryption.rs`, `helpers/receive.rs` |
| ECDSA on P-256 and secp256k1 | `Verif.Model.Algo.Ecdsa` | crates `p256`, `k256`; written down from SEC 1 and SEC 2 |
| Ed25519, SHA-512 | `Verif.Model.Algo.Ed25519`, `Verif.Model.Algo.Sha512` | crate `ed25519-dalek` 1.0; written down from RFC 8032 and FIPS 180-4 |
| did:key, base58 | `Verif.Model.Algo.DidKey` | crate `ddoresolver-rs` 0.4; written down from the did:key method, multibase and multicodec; other DIDs, other curves and the names of keys stay arbitrary |
| numbers with a fraction or exponent | `Verif.Model.Algo.Float` | crates `serde_json` 1.0 without `float_roundtrip`, `ryu` 1.0; recalled |
| nonces of ECDSA | `Verif.Model.Algo.Rfc6979` | crate `ecdsa` below `p256` and `k256`; written down from RFC 6979 and RFC 2104; a loop without end is a failure |
| reading of values with the feature `raw_value` (`Cargo.toml:21`) | `Verif.Model.RawValue` | crate `serde_json` 1.0, `Value::deserialize`; recalled; used for C150, C151, C153, C154 and C155 only |
| `receive`, `routed_by`, `seal_signed` and what they call, with the feature `raw_value` | `Verif.Model.RawReceive` | `src/messages/message.rs:410-434,454-475,621-637`, `src/messages/helpers/receive.rs`, `src/messages/message_raw_crypto.rs:97-125,169-210`; used for C150, C151, C153, C154 and C155 only |
| X25519, XChaCha20-Poly1305, AES-256-GCM and CBC, SHA-256 | `Verif.Model.Algo.*` | crates `x25519-dalek`, `chacha20poly1305`, `aes-gcm`, `libaes`, `sha2`; written down from RFC 7748, RFC 8439, draft-irtf-cfrg-xchacha-03, FIPS 197, SP 800-38A/D, FIPS 180-4 |
| regular expressions | `Verif.Model.Regex` | crate `regex`, the two patterns in the code |

Property theorems are in `Verif.Props.*`, the small independent specifications in `Verif.Spec.*`,
helper lemmas in `Verif.Lemma.*`.

### Decisions

* `Str = List Char` (a Rust `String` is a sequence of Unicode scalar values), `Bytes = List UInt8`.
* JSON text is parsed into a raw tree that keeps member order and duplicate keys; the derived
  deserializers are functions on that tree.  `serde_json::Value` is the canonical form of the tree
  (sorted unique keys, last duplicate wins, canonical numbers).
* `HashMap` contents are canonical (sorted, unique); the *iteration order* used when serializing is an
  explicit argument `o : HOrd`, an arbitrary function that permutes entries.  Theorems quantify over it.
  The sender and the receiver get independent orders.
* Randomness (ephemeral keys, nonces, uuids) and the clock are explicit arguments.
* A signature is deserialized through `&[u8]` (`src/messages/helpers/serialization.rs:12`), which only borrows: a string
  with an escape has no borrowed form.  The parser is generic in what it makes of a string; the second
  reading (`parseStruck`) puts a mark where a string has an escape, and `borrowed` looks for marks at the
  positions of signatures.
* The recursion limit of `serde_json` (128) is modelled where the code buffers a value
  (`Value`, `#[serde(flatten)]`), because it makes a difference (C06).
* All serde errors are one error value; `Generic` texts are kept without their formatted parts.
* One `HOrd` stands for the orders of all maps met in one call; `o.sub k` is the part used by component
  `k`, so different maps, and the same map serialized twice, get independent orders.
* The features are the default ones (`raw-crypto`, `resolve`, `out-of-band`).  The build without
  `resolve` is modelled in `Model/Offline.lean` and proved (C93) to be the instance of the default one in
  which `P.resolve` always fails, up to the error value when `skid` is missing.
* `P.resolve` is a function of the DID: within one call of the crate its answers do not change.  `Model/Resolver.lean`
  drops this for `seal` and `receive`, where the answer may depend on the number of the call; C144 shows that the
  results are those of the main model if the answers do not change, and what happens if they do.
* Regular expressions are matched by derivatives; this is proved equal to the usual reading of the
  operators.

## 2. Properties: what is modelled and how it is proved

| id | model | proof |
|---|---|---|
| C01 C02 | base64url codec | against RFC 4648 stated on bit strings; induction over 3-byte groups; `C02_decode_iff` gives the exact set of decoded texts |
| C03 | printer and parser | mutual induction on the tree, fuel independence of the parser |
| C04 | `body`, `get_body`, `Value` | canonicalisation is idempotent |
| C05 C06 C07 | `as_raw_json`, `receive`, derived codecs | field lookup lemmas over the generated entry list; witnesses for the violations; `C06_received_iff` is an equivalence |
| C08 C09 | `to`, `add_header_field` | loop equals filter; fold over histories equals finite map |
| C10-C14 | builders | case analysis; frame statements; commutation |
| C15 | `seal` | case analysis with error precedence |
| C16-C19 | `seal`, `receive` | composition of codec round-trips with the AEAD and DH laws |
| C20 C21 C22 | `receive_jwe`, `decrypt` | inversion of the success path; injectivity of header encoding; witness |
| C23 | `encrypt` | inversion |
| C24-C27 | `sign`, `verify` | inversion and induction over the signature list; witnesses |
| C28-C31 | `seal_signed`, `receive_jws` | composition; inversion; attack as a theorem; for C29 the exact condition for signed text to be accepted |
| C32 C33 | `seal` with the constant content key | theorem: decryption without keys; forged envelope accepted |
| C20 C34 | whole receive path | acceptance and panics as equivalences (`C20_accepted_iff`, `C34_panic_iff`): each step is characterised as an iff, then composed; panic witnesses |
| C35 C36 | `get_message_type`, `receive` | inversion |
| C37 C38 | `generate_kek`, `concat_kdf` | DH law; injectivity of length-prefixed encoding |
| C39 C40 | label tables | whole-table case analysis plus rejection of every other text; the tables against the names of RFC 7517, 7518 and DIDComm |
| C41 C42 | `routed_by`, `Mediated` | composition; universal failure |
| C43 C44 C45 | `get_iv`, external crypto, anonymous envelopes | universal failure theorems |
| C46 C47 | regular expressions | derivatives matcher proved equal to the language; language characterised |
| C48 C51 C52 C56 | attachments, invitations, threads, forward header | case analysis, induction on lists |
| C49 C50 | getters, `received_as_jwe` | case analysis |
| C53 | `sign` | inversion |
| C54 | hex codec | induction |
| C55 | cipher wrappers | case analysis plus AEAD laws |
| C57 C60 C61 C62 | `routed_by`, `seal`, `receive` | success and panics as equivalences (`C60_seal_iff`, `C60_seal_signed_iff`, `C57_routed_iff`), by induction over the recipients; key sizes by case analysis; C62 also for a resolver whose answers change (`C62_answers_no_panic`) |
| C58 C59 | attachments by type, DID extraction | universal counterexamples |
| C63 C64 C65 | receive after receive, replies, empty recipients | composition of C05, C16; universal counterexamples |
| C66 C67 C68 | header precedence, `from` against `skid`, `enc` | attacks as theorems; what holds for envelopes of `seal` |
| C69 | `receive` under two map orders | congruence through every step of `receive` |
| C70 | associated data of foreign envelopes | refusal from `Closed`; acceptance from the AEAD law |
| C71-C74 | downgrade, rotation, moved recipient entries, forwarded signatures | attacks as theorems, built from C05, C16, C24 |
| C75 C77 | `verify_value`, member order, escapes | every decoder is stable under `Spec.Same` (reordered members); escaped signatures refused |
| C79 C81 C82 | what decides acceptance | times, unprotected headers, unknown members; congruence of opening in what it reads |
| C80 | `receive` against `verify` | one document carrying two signed messages; agreement elsewhere |
| C83 C84 C85 | `encrypt`, `decrypt` with any cipher | all outcomes by inversion; composition with the codec round-trips |
| C86 C91 | sizes | AEAD length law; length of printed members; induction over layers |
| C87 C90 | typed bodies, plugged in signers | stability under `Spec.Same`; inversion of `verify` |
| C88 | several mediators | induction over the list of layers, C17 for each |
| C89 | other keys | `Spec.Rejects` for the two key-encryption keys; induction over recipient entries |
| C92 C93 | given keys, build without `resolve` | congruence in the primitives; case analysis where the builds differ |
| C94 | envelopes of other implementations (violated) | from C95: a missing member is no document of the schema |
| C95 C96 | exact readers | against a small schema language and a relation field by field (`Spec/Schema.lean`, `Spec/Contents.lean`); one lemma per combinator |
| C97 C98 | standard ciphers and X25519 | the algorithms written down from the RFCs; stream ciphers undo themselves; the ladder against the group law of Mathlib's Weierstrass curves, with certificates that the field and the order are prime |
| C99 | weak public keys (violated) | multiples of the points of small order; other keys never give zero because the orders of the curve and of the twist are small multiples of primes |
| C100 | everything together | C16 with the laws proved for the standard algorithms |
| C101 | A256CBC (violated) | the inverse cipher of FIPS 197 undoes each round: the substitution table byte by byte, the mixing because doubling is additive; chaining and padding by induction |
| C102 C103 | ECDSA, mirrored signatures (violated for ES256) | affine formulas against the group law of Mathlib's Weierstrass curves, prime certificates for fields and orders; verification sees the nonce's point up to sign |
| C104–C107 | EdDSA, weak keys and mismatched halves (violated) | twisted Edwards addition carried to Mathlib's Weierstrass curve by the birational map, complete because the constant is no square; square roots by the power (p+3)/8; two signatures are two linear equations |
| C108–C110 | DIDs of the method key; a key has several DIDs (violated) | base58 by Mathlib's `Nat.digits`; the birational map carries the base point of Ed25519 to that of X25519 |
| C111 | the numbers of a body (violated) | `f64` and its decimal printing over the rationals; the shortest digits are unique below 10^15 |
| C112 | `receive` as one equivalence | each step an iff (`kind_iff`, `verifiedOf_iff`, `receiveJwe_outcome`, `reread_iff`), composed; no condition on the text or its content |
| C113 | conversations of any length (violated) | an inductive relation of answers, each sealed and received; invariants by induction |
| C114 | lengths of envelopes | sizes in bytes of written JSON, permutation of members, sizes of base64 text |
| C115 | parts of an envelope that are not looked at | invariance of `receive` under a relation on envelopes, used with rewritten entries and ivs |
| C116 | one reading of a text | the exact description of `receive` (C112), uniqueness of payload and content, independence of map orders |
| C117 | repudiation of envelopes | a specified procedure without the private key of the sender, proved to give the text of `seal`; commutativity of key agreement |
| C118 | list of recipients shown by an envelope | entries are not part of the associated data; the received message reports the entries sealed in it |
| C119 | altered ciphertexts and headers | tags are values of polynomials over the fields of `2 ^ 130 - 5` and `2 ^ 128` elements (primality and irreducibility by certificates); different inputs give different polynomials; number of roots |
| C120 | errors of `receive` | each step as an equivalence for the error it returns, composed as in C112; errors inside the loops over entries and signatures are shown to be dropped |
| C121 C122 | ECDSA signatures fix message and key | acceptance depends on a multiple of the base point up to sign; the equation of two acceptances solved for the secret, and for the key |
| C123 | one content per envelope | equality of two tags is a linear equation in the last block over the field of `2 ^ 128` elements, whose coefficient is the square of the difference of the hash keys; for XChaCha20-Poly1305 sixteen last blocks are found with the Cauchy–Davenport theorem modulo `2 ^ 130 - 5` |
| C124 | one key per EdDSA signature | the four spellings of the neutral element are read as it, and its multiples are zero; for keys of secrets the equation of C105 is compared with itself in the group of the base point, whose order is prime |
| C125 | private keys count by their agreements | every use of a private key in the model is an agreement; the two runs are compared step by step; clamping forgets five bits |
| C126 | an entry is about its recipient only | entry `i` of either envelope is the result of `encrypt_cek` for it, which looks at the algorithm of the message only; with C125 for the private keys |
| C127 C128 | nonces of ECDSA | the loop is a partial fixpoint, its result the first value in range by induction on the approximations; with one nonce the two equations of signing are linear in the secret, and `hits_unique` gives the nonce back from the first half up to sign |
| C129 C130 | an iv used twice | both ciphers add a key stream that depends on key and iv only; a tag is the hash plus a mask, so two tags under one mask differ by the hashes, and C119 bounds the hash keys that two tags allow |
| C131 | two EdDSA signatures | the two equations of verification have the same point on one side; subtracting them gives a linear equation for the scalar in the group of prime order |
| C132 | weak keys | every number is the coordinate of a point of the curve or of its twist, which together have `2p + 2` points (quadratic character); points of order 8 and `ell`, 4 and `ellT` with both primes certified leave no other orders than `8 ell` and `4 ellT`; the points of order dividing 8 are found by halving; equal coordinates are equal or opposite points |
| C133 | ECDSA keys and signatures come from secrets | as in C132 the curve and its twist (`b` negated, both primes are 3 modulo 4) have `2p + 2` points together; the order of the base point divides the number of points, which leaves once or twice the order, and a point of the twist excludes the latter; so every point is a multiple of the base point. The nonce is what the verification equation gives |
| C134 | weak EdDSA keys | the order of the curve from C132 carried over the map to the Montgomery curve; the quotient by the multiples of the base point has eight elements; the points of order dividing eight from C132, and all spellings of their second coordinates |
| C135 | EdDSA signatures come from secrets | a key is `k` times the base point plus a point of order dividing eight (C134); the verification equation solved for the nonce |
| C136 | accuracy of numbers | the digits that are taken, three roundings to 53 bits and the interval of the printed number give 2^-50 for one reading; readings of documents compose (`normJ_compose`) |
| C137 | numbers that do not fit | from the exponent and the digits: 1.8·10^308 and more is refused with any exponent, at most 2.4·10^-324 is read as zero without an error, what is between 2.5·10^-324 and 1.79·10^308 is not zero after any number of hops |
| C138 | work for an incoming text | counters beside the loops of `verify`, `receive_jws` and `receive_jwe`; the results are unchanged; a signature whose second half is the group order is well formed and refused under every key |
| C139 | reading again | every finite `f64`, the largest and the subnormal ones included, is printed as a text that is read as a finite `f64`; the endless sequence of messages is given by repeated reading |
| C140 | settling (violated) | two numbers that are read as each other; finitely many texts are printed, so repeated reading is periodic |
| C141 | order of numbers (violated) | two numbers that change places, two spellings of one number that differ afterwards; the intervals of floats do not overlap, so rounding and printing keep the order |
| C142 | envelopes sent back to their sender (violated) | without entries the content key is the shared secret, the same for both; with entries the inputs of the derivation differ unless the two public keys are equal (C38, C98, C132) |
| C143 | observers of routed messages (violated) | C32 and C33 for each layer of C41 and C88 |
| C144 | one resolution per call (violated) | `Model/Resolver.lean`: the resolver's answers depend on the number of the call; the same results for constant answers (C144_same) |
| C145 | attachments match their hash (violated) | independence of `deserialize_attachments` from hash, signature and size (C145_read_violated); any list of attachments is received, plain, signed or sealed |
| C146 | failures of the resolver are reported (violated) | on `Model/Resolver.lean`: sealing needs two useful answers for every recipient (C146_seal_partial); receiving reports only a failure of the first call |
| C147 | flattened and general form are read alike | equality of outcomes, errors included; reading depends on an envelope only through the list of entries tried, and on a signed document only through payload and signatures |
| C148 | protected documents can be nested (violated) | from the exact outcome of opening (C34, C112): any content can be put into an envelope that is opened; a signed document or an envelope is no message for lack of `id` |
| C149 | passing a message on | induction on the chain from C16 and C17; what `seal` leaves in the message is replaced by the next `seal` |
| C150 | objects in bodies (violated) | `Model/RawValue.lean`: reading of values with the feature `raw_value` of `serde_json`; the texts inside are shorter, so reading ends (rawText_enough); equal to the rest of the model where no object begins with the name |
| C151 | receiving with `raw_value` | `Model/RawReceive.lean`: the functions that read messages, with the feature; each text on the way is read alike (raw_agrees), as in C17, C24, C28, C05, C41 |
| C152 | one message per text | reading is a function (`ofText_text`); the fixed content key opens an envelope to one text (`decrypt_envelope`) |
| C153 | depth of bodies (violated) | texts in texts (C150); depth of what is read (normJ_depth) where no object begins with the name |
| C154 | acceptance with the feature raw_value | reading with it succeeds only where reading without it does (normJ_of_rawJ); the conditions of C20, C26 and C29 again for the functions with it |
| C155 | reading what was read, with the feature raw_value | no object that was read consists of the name alone (rawJ_out), and a reading of such a value meets no object that begins with the name (noToken_of_rawJ); then C150 and C153 |
| C76 C78 | claims, problems, `to_string` | exact acceptance; whole-table case analysis |

A property marked "(violated)" is false of the code.  For those the negation is proved with a concrete
or universally quantified witness, and the part that does hold is proved under a name ending in
`_partial`.

## 3. Trusted base

* Lean's kernel and the axioms `propext`, `Classical.choice`, `Quot.sound` (checked with
  `#print axioms`); no `sorry`, no added axioms, no `native_decide`, no `bv_decide`.
* The claim that the Lean functions describe the Rust code (each cites file and lines) and the crates
  it calls.
* Cryptography is a parameter `P : Prims` of arbitrary functions.  Theorems that need it assume
  `Laws P` (`Verif.Spec.Prims`: correctness of AEAD, DH commutativity, output sizes, floats print as
  number tokens), never secrecy or unforgeability.  Signature correctness is `SignPair` of a key pair.
  A toy instance satisfying all laws shows they are consistent.  For the standard algorithms (`P.std`,
  `Verif.Model.Algo.Prims`) all laws but the one on floats are theorems (`std_laws`, `std_total`,
  `std_decLen` in `Verif.Props.Algo`), so every theorem that assumes `Laws P` holds of them; with the numbers of
  `serde_json` too (`P.floats`) the laws need no hypothesis (`laws_standard` in `Verif.Props.Number`).  DID
  resolution stays arbitrary, and with `P.didKey` only other DIDs than those of the method `key`.  For the standard signatures (`P.signed nonce`, an arbitrary
  source of nonces for ECDSA; `P.signedDet`, the nonces of RFC 6979, to which C127 carries over what holds for all sources) what is signed is proved to verify (C102), and `SignPair` holds of every EdDSA
  secret (C104).  That the crates compute these algorithms is assumed; the Lean functions were compared with
  published test vectors (`Verif.Props.Vectors` and beside the properties).
* The model can be run.  What the tests of the repository assert is compared with what the model computes
  (`Verif.Props.CrateTests`) or follows from theorems (`Verif.Props.DidKey`: the tests with DIDs and the mediated
  one; C65, C41, C102).  Left out are the tests that look at random values, that pass other functions for encryption or
  that expect a refusal under a wrong key.
* Further hypotheses, each named where used: `AeadTotal` (encryption does not fail with a key and nonce of
  the right size) for totality of `seal`; `Closed` (the ciphertext at hand does not open with other associated
  data) for the refusals in C70;
  `DecLen` (opening removes exactly the 16 bytes of the tag) in C62; `Rejects` and `EntryClosed` (the wrapped
  content key does not open under another key) in C89;
  `FloatLaw` (printed floats are number tokens and not integers; proved of `serde_json`, `floatLaw_f64Text`) in
  C75 and C87; `NumsStable`/`Canon` (numbers of a body read back as
  written; always true of integers, false of some floats, which is finding C111) in the conditions `Message.WF` on messages; `HeaderFixed` (at most
  one custom member in `jwk` and in `epk`, else the iteration order changes the header text, which is
  finding C27/C70).
* Versions.  `/repo` has no `Cargo.lock` and the crates' sources were not available, so what is said of
  third-party crates is their documented behaviour, recalled for the versions allowed by `Cargo.toml`
  and not checked against code: `base64` 0.13 behind `base64-url` 1.4, `serde` 1, `serde_json` 1 with
  the feature `raw_value` (`Cargo.toml:20-22`), `regex` 1, `hex` 0.4, `rand_chacha` 0.3.  Assumed in
  particular: no other crate in the build turns on `preserve_order`, `arbitrary_precision` or
  `unbounded_depth` of `serde_json`; a unit variant may also be written `{"X": null}`; `k256` makes and
  takes only signatures with the smaller second half, `p256` does neither; both read public keys in the long
  and in the short form of SEC 1; `ed25519-dalek` 1.0 does not compare the halves of a key pair, takes weak public
  keys and second coordinates that are not reduced, refuses signatures with one of the top three bits set or
  a second half that is not reduced, and compares the encoding of the point (no cofactor).

## 4. Not modelled

* The error variant of `jose-biscuit` (`src/error.rs:32`; `Cargo.toml` has no such feature);
  `src/messages/didurl.rs` (not in the module tree); logging;
  `asymmetric_encryptor` (`src/crypto/encryptor.rs:108`, `todo!()`).
* Functions that only build or return a record and are inlined where they are called: the `Default` impls
  (`src/messages/message.rs:641`, `src/messages/headers/didcomm.rs:125`, `src/messages/headers/jwk.rs:135`,
  `src/messages/problem_report.rs:104`, `src/messages/attachment.rs:134`), `Recipient::new`
  (`src/messages/jwe.rs:21`), `Signature::new` (`src/messages/jws.rs:42`), the two `finalize`
  (`src/messages/attachment.rs:128,249`), the getter `from_prior` and the `kid` setter of the header
  (`src/messages/headers/didcomm.rs:100`, `src/messages/headers/jwm.rs:94`).  `gen_random_id`
  (`src/messages/headers/didcomm.rs:62`) is the argument `uuid` of the models that use it.
* The DID resolver but for the X25519 keys of DIDs of the method `key` (other DIDs, other curves and names of keys
  are a parameter).  The conversion of these is recalled; the three DIDs with private keys of the tests of the
  repository confirm it (`alice_owns`, `bob_owns`, `mediator_owns`).
* A nonce of ECDSA without signature is a panic in the crates and a failure here.  The crypto crates are modelled by the standards they implement, without their size limits (`chacha20poly1305` refuses messages of
  about 2^38 bytes, `aes-gcm` of about 2^36).
* The map from a non-integer number token to the text serde_json prints for it is a parameter but in C111, C136, C137 and C139 to C141, where it
  is the recalled algorithm of `serde_json` and `ryu`; theorems that need the numbers of a body to be stable assume
  it of that body.
  A program that links another crate asking for `float_roundtrip` or `arbitrary_precision` of `serde_json` gets that
  feature here too, and these are not about it.
* Signature primitives are total functions into `Option`: key and signature parsing errors and
  verification errors are one failure, panics inside the crates are not modelled.
* serde details with no effect on texts the crate writes: lone surrogate escapes and
  invalid UTF-8 inside *ignored* values are accepted by the code but rejected by the model.
* The name under which `serde_json` passes `RawValue` through serde, `$serde_json::private::RawValue`, is looked for in
  `Model/RawValue.lean` and `Model/RawReceive.lean` only.  All theorems but C150, C151, C153, C154 and C155 about bodies are about bodies in which no object begins with that
  name; C150_set_partial, C150_read_partial, C150_written_partial and C151 say that for these nothing is different.
