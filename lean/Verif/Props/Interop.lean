import Verif.Props.Schema

/-!
# Envelopes made elsewhere

C94: envelopes in the form of RFC 7516 and DIDComm Messaging v2 are refused.
-/

namespace Verif

open Spec

/-- Encrypted input that does not conform to the schema is refused, whatever the keys. -/
theorem C94_refused (P : Prims) (o : HOrd) (s : Str) (es : List (Str × Json)) (hs : Document (.obj es) s)
    (hi : HasMember c!"iv" es) (hc : ¬ Conforms jweTy (.obj es)) (sk : Bytes) (ek vk : Option Bytes) :
    Message.receive P o s (some sk) ek vk = .err .serde := by
  have h1 : Jwe.ofText P.f64 s = none := by
    cases h : Jwe.ofText P.f64 s with
    | none => rfl
    | some e =>
      obtain ⟨es', hd, hc', -⟩ := (C95_jwe P.f64 s).1.1 ⟨e, h⟩
      have : es' = es := by
        have := parseJson_iff.2 hd
        rw [parseJson_iff.2 hs] at this
        cases this; rfl
      subst this
      exact absurd hc' hc
  obtain ⟨h2, h3⟩ := C35_objects P s es hs
  by_cases ha : ∀ k ∈ classKeys, AtMostOnce k es
  · simp [Message.receive, Message.decryptStep, (h3 ha).1 hi, Message.receiveJwe, h1]
  · have : ∃ k ∈ classKeys, ¬AtMostOnce k es := by
      simpa using ha
    simp [Message.receive, Message.decryptStep, h2 this]

theorem key_members {k : List (Str × Json)} (h : Conforms keyTy (.obj k)) :
    (∃ v, (c!"key_ops", v) ∈ k) ∧ ∃ v, (c!"alg", v) ∈ k := by
  simp only [keyTy, Conforms, Json.obj.injEq, exists_eq_left'] at h
  have h1 := fields_mem h.1 (f := (c!"key_ops", .required, _)) (.tail _ (.tail _ (.tail _ (.head _))))
  have h2 := fields_mem h.1 (f := (c!"alg", .required, _)) (.tail _ (.tail _ (.tail _ (.tail _ (.head _)))))
  simp only [Field1] at h1 h2
  exact ⟨h1.2.1 trivial, h2.2.1 trivial⟩

theorem header_members {hs : List (Str × Json)} (h : Conforms headerTy (.obj hs)) :
    (∃ v, (c!"typ", v) ∈ hs) ∧ ∀ n k, n = c!"epk" ∨ n = c!"jwk" → (n, .obj k) ∈ hs →
      (∃ v, (c!"key_ops", v) ∈ k) ∧ ∃ v, (c!"alg", v) ∈ k := by
  simp only [headerTy, Conforms, Members, Json.obj.injEq, reduceCtorEq, false_and, exists_false, or_false,
    exists_eq_left'] at h
  have h1 := fields_mem h (f := (c!"typ", .required, _)) (.head _)
  simp only [Field1] at h1
  refine ⟨h1.2.1 trivial, ?_⟩
  have h2 := fields_mem h (f := (c!"epk", .optional, keyTy)) (by simp [headerFields])
  have h3 := fields_mem h (f := (c!"jwk", .optional, keyTy)) (by simp [headerFields])
  simp only [Field1] at h2 h3
  rintro n k (rfl | rfl) hk
  · rcases h2.2.2 _ hk with ⟨-, h⟩ | h
    · cases h
    · exact key_members h
  · rcases h3.2.2 _ hk with ⟨-, h⟩ | h
    · cases h
    · exact key_members h

/-- C94.  Violated: an encrypted envelope with a recipient entry as in RFC 7516 and DIDComm v2, whose header
names the key with `kid` but has no `key_ops` or no `alg`, is refused. -/
theorem C94_entry_header_violated (P : Prims) (o : HOrd) (s : Str) (es : List (Str × Json)) (hs : Document (.obj es) s)
    (hi : HasMember c!"iv" es) (l : List Json) (e h : List (Str × Json)) (hl : (c!"recipients", .arr l) ∈ es)
    (he : .obj e ∈ l) (hh : (c!"header", .obj h) ∈ e)
    (hn : (∀ v, (c!"key_ops", v) ∉ h) ∨ ∀ v, (c!"alg", v) ∉ h) (sk : Bytes) (ek vk : Option Bytes) :
    Message.receive P o s (some sk) ek vk = .err .serde := by
  refine C94_refused P o s es hs hi (fun hc => ?_) sk ek vk
  simp only [jweTy, Conforms, Json.obj.injEq, exists_eq_left'] at hc
  have h1 := fields_mem hc (f := (c!"recipients", .optional, .list entryTy)) (by simp)
  simp only [Field1, entryTy, Conforms] at h1
  rcases h1.2.2 _ hl with ⟨-, h⟩ | ⟨l', h2, h3⟩
  · cases h
  · cases h2
    obtain ⟨es', hm, hf⟩ := h3 _ he
    simp only [Members, Json.obj.injEq, reduceCtorEq, false_and, exists_false, or_false] at hm
    subst hm
    have h4 := fields_mem hf (f := (c!"header", .required, keyTy)) (by simp [entryFields])
    simp only [Field1] at h4
    rcases h4.2.2 _ hh with ⟨h, -⟩ | h5
    · cases h
    · obtain ⟨⟨v, h6⟩, w, h7⟩ := key_members h5
      rcases hn with hn | hn
      · exact hn _ h6
      · exact hn _ h7

/-- C94.  Violated: an encrypted envelope is refused when its protected header has an ephemeral key as in
RFC 7518 section 4.6.1.1 (without `key_ops`, without `alg`), or no `typ`. -/
theorem C94_protected_violated (P : Prims) (o : HOrd) (s : Str) (es : List (Str × Json)) (hs : Document (.obj es) s)
    (hi : HasMember c!"iv" es) (t text : Str) (h : List (Str × Json)) (ht : (c!"protected", .str t) ∈ es)
    (hb : Base64Text (utf8 text) t) (hd : Document (.obj h) text)
    (hn : (∀ v, (c!"typ", v) ∉ h) ∨
      ∃ k, (c!"epk", .obj k) ∈ h ∧ ((∀ v, (c!"key_ops", v) ∉ k) ∨ ∀ v, (c!"alg", v) ∉ k))
    (sk : Bytes) (ek vk : Option Bytes) :
    Message.receive P o s (some sk) ek vk = .err .serde := by
  refine C94_refused P o s es hs hi (fun hc => ?_) sk ek vk
  simp only [jweTy, Conforms, Json.obj.injEq, exists_eq_left'] at hc
  have h1 := fields_mem hc (f := (c!"protected", .default, .encoded headerTy)) (by simp)
  simp only [Field1] at h1
  rcases h1.2.2 _ ht with ⟨h, -⟩ | h2
  · cases h
  · simp only [Conforms, reduceCtorEq, false_or, Json.str.injEq] at h2
    obtain ⟨_, text', i, rfl, hb', hd', hi'⟩ := h2
    have : text' = text := by
      have h3 := C02_decode_iff.2 hb
      rw [C02_decode_iff.2 hb'] at h3
      have h4 := congrArg utf8Decode (Option.some.inj h3)
      simpa using h4
    subst this
    have : i = .obj h := by
      have := parseJson_iff.2 hd'
      rw [parseJson_iff.2 hd] at this
      cases this; rfl
    subst this
    rcases hi' with h | h5
    · cases h
    · obtain ⟨⟨v, h6⟩, h7⟩ := header_members h5
      rcases hn with hn | ⟨k, hk, hn⟩
      · exact hn _ h6
      · obtain ⟨⟨v, h8⟩, w, h9⟩ := h7 _ _ (.inl rfl) hk
        rcases hn with hn | hn
        · exact hn _ h8
        · exact hn _ h9

/-- C94.  Violated: a signed document with a signature as in DIDComm v2, whose unprotected header names the
key but has no `typ`, is refused. -/
theorem C94_signature_header_violated (P : Prims) (o : HOrd) (s : Str) (es : List (Str × Json))
    (hs : Document (.obj es) s) (hi : ¬ HasMember c!"iv" es) (l : List Json) (e h : List (Str × Json))
    (hl : (c!"signatures", .arr l) ∈ es) (he : .obj e ∈ l) (hh : (c!"header", .obj h) ∈ e)
    (hn : ∀ v, (c!"typ", v) ∉ h) (sk ek vk : Option Bytes) :
    Message.receive P o s sk ek vk = .err .jwsParseError ∨ Message.receive P o s sk ek vk = .err .serde := by
  have h1 : Jws.ofText P.f64 s = none := by
    cases h : Jws.ofText P.f64 s with
    | none => rfl
    | some j =>
      obtain ⟨es', hd, hc, -⟩ := (C95_jws P.f64 s).1 ⟨j, h⟩
      have : es' = es := by
        have := parseJson_iff.2 hd
        rw [parseJson_iff.2 hs] at this
        cases this; rfl
      subst this
      simp only [jwsTy, Conforms, Json.obj.injEq, exists_eq_left'] at hc
      have h1 := fields_mem hc (f := (c!"signatures", .optional, .list signatureTy)) (by simp)
      simp only [Field1, signatureTy, Conforms] at h1
      rcases h1.2.2 _ hl with ⟨-, h⟩ | ⟨l', h2, h3⟩
      · cases h
      · cases h2
        obtain ⟨es', hm, hf⟩ := h3 _ he
        simp only [Members, Json.obj.injEq, reduceCtorEq, false_and, exists_false, or_false] at hm
        subst hm
        have h4 := fields_mem hf (f := (c!"header", .optional, headerTy)) (by simp [signatureFields])
        simp only [Field1] at h4
        rcases h4.2.2 _ hh with ⟨-, h⟩ | h5
        · cases h
        · obtain ⟨⟨v, h6⟩, -⟩ := header_members h5
          exact absurd h6 (hn v)
  have h2 : Message.ofText P.f64 s = none := by
    cases h : Message.ofText P.f64 s with
    | none => rfl
    | some m =>
      obtain ⟨es', hd, hc, -⟩ := (C95_message P.f64 s).1 ⟨m, h⟩
      have : es' = es := by
        have := parseJson_iff.2 hd
        rw [parseJson_iff.2 hs] at this
        cases this; rfl
      subst this
      simp only [messageTy, Conforms, Json.obj.injEq, exists_eq_left'] at hc
      obtain ⟨t, ht⟩ := hc.2 _ hl (show c!"signatures" ∉ _ by decide)
      cases ht
  obtain ⟨h3, h4⟩ := C35_objects P s es hs
  by_cases ha : ∀ k ∈ classKeys, AtMostOnce k es
  · left
    have h5 := (h4 ha).2.1 hi (.inr ⟨.arr l, by simp, hl⟩)
    simp [Message.receive, Message.decryptStep, Message.verifyStep, h5, Message.receiveJws, Message.verifiedOf, h1, h2]
  · right
    have : ∃ k ∈ classKeys, ¬AtMostOnce k es := by
      simpa using ha
    simp [Message.receive, Message.decryptStep, h3 this]

/-- An encrypted envelope as in appendix C of DIDComm Messaging v2, with shortened values. -/
def didcommJwe : Str :=
    c!"{\"ciphertext\":\"_-c\",\"protected\":\"eyJlcGsiOnsia3R5IjoiT0tQIiwiY3J2IjoiWDI1NTE5IiwieCI6Il8tY" ++
    c!"yJ9LCJ0eXAiOiJhcHBsaWNhdGlvbi9kaWRjb21tLWVuY3J5cHRlZCtqc29uIiwiZW5jIjoiWEMyMFAiLCJhbGciOiJ" ++
    c!"FQ0RILUVTK0EyNTZLVyJ9\",\"recipients\":[{\"encrypted_key\":\"_-c\",\"header\":{\"kid\":\"did:e:b#k\"}}]" ++
    c!",\"tag\":\"_-c\",\"iv\":\"_-c\"}"

/-- Its protected header. -/
def didcommJweHeader : Str :=
    c!"{\"epk\":{\"kty\":\"OKP\",\"crv\":\"X25519\",\"x\":\"_-c\"},\"typ\":\"application/didcomm-encrypted+json\",\"" ++
    c!"enc\":\"XC20P\",\"alg\":\"ECDH-ES+A256KW\"}"

/-- A signed document as in appendix C of DIDComm Messaging v2, with shortened values. -/
def didcommJws : Str :=
    c!"{\"payload\":\"e30\",\"signatures\":[{\"protected\":\"eyJ0eXAiOiJhcHBsaWNhdGlvbi9kaWRjb21tLXNpZ25lZ" ++
    c!"Ctqc29uIiwiYWxnIjoiRWREU0EifQ\",\"signature\":\"_-c\",\"header\":{\"kid\":\"did:e:a#k\"}}]}"

/-- The hypotheses of the theorems hold for these texts. -/
example : ∃ es l e h, Document (.obj es) didcommJwe ∧ HasMember c!"iv" es ∧ (c!"recipients", .arr l) ∈ es ∧ .obj e ∈ l ∧
    (c!"header", .obj h) ∈ e ∧ ∀ v, (c!"key_ops", v) ∉ h :=
  ⟨_, _, _, _, parseJson_iff.1 (show parseJson didcommJwe = some (.obj
      [(c!"ciphertext", .str c!"_-c"), (c!"protected", .str (b64Encode (utf8 didcommJweHeader))),
       (c!"recipients", .arr [.obj [(c!"encrypted_key", .str c!"_-c"), (c!"header", .obj [(c!"kid", .str c!"did:e:b#k")])]]),
       (c!"tag", .str c!"_-c"), (c!"iv", .str c!"_-c")]) by decide +kernel),
    ⟨.str c!"_-c", by simp, by simp⟩, .tail _ (.tail _ (.head _)), .head _, .tail _ (.head _), by simp⟩

example : ∃ es h k, Document (.obj es) didcommJwe ∧ (c!"protected", .str (b64Encode (utf8 didcommJweHeader))) ∈ es ∧
    Document (.obj h) didcommJweHeader ∧ (c!"epk", .obj k) ∈ h ∧ ∀ v, (c!"key_ops", v) ∉ k :=
  ⟨_, _, _, parseJson_iff.1 (show parseJson didcommJwe = some (.obj
      [(c!"ciphertext", .str c!"_-c"), (c!"protected", .str (b64Encode (utf8 didcommJweHeader))),
       (c!"recipients", .arr [.obj [(c!"encrypted_key", .str c!"_-c"), (c!"header", .obj [(c!"kid", .str c!"did:e:b#k")])]]),
       (c!"tag", .str c!"_-c"), (c!"iv", .str c!"_-c")]) by decide +kernel), .tail _ (.head _),
    parseJson_iff.1 (show parseJson didcommJweHeader = some (.obj
      [(c!"epk", .obj [(c!"kty", .str c!"OKP"), (c!"crv", .str c!"X25519"), (c!"x", .str c!"_-c")]),
       (c!"typ", .str c!"application/didcomm-encrypted+json"), (c!"enc", .str c!"XC20P"),
       (c!"alg", .str c!"ECDH-ES+A256KW")]) by decide +kernel), .head _, by simp⟩

example : ∃ es l e h, Document (.obj es) didcommJws ∧ ¬ HasMember c!"iv" es ∧ (c!"signatures", .arr l) ∈ es ∧ .obj e ∈ l ∧
    (c!"header", .obj h) ∈ e ∧ ∀ v, (c!"typ", v) ∉ h :=
  ⟨_, _, _, _, parseJson_iff.1 (show parseJson didcommJws = some (.obj
      [(c!"payload", .str c!"e30"),
       (c!"signatures", .arr [.obj [(c!"protected", .str c!"eyJ0eXAiOiJhcHBsaWNhdGlvbi9kaWRjb21tLXNpZ25lZCtqc29uIiwiYWxnIjoiRWREU0EifQ"),
         (c!"signature", .str c!"_-c"), (c!"header", .obj [(c!"kid", .str c!"did:e:a#k")])]])]) by decide +kernel),
    (by rintro ⟨v, -, h⟩; simp at h), .tail _ (.head _), .head _, .tail _ (.tail _ (.head _)), by simp⟩

end Verif
