import Verif.Lemma.Algo.DidKey
import Verif.Props.EdDsa
import Verif.Props.Route

/-!
# C108, C109, C110: DIDs of the method `key`

`P.didKey` are primitives that resolve DIDs of the method `key`; of `(P.signed nonce).didKey.std` only other DIDs, the
names of keys and the printing of fractional numbers are arbitrary.
-/

namespace Verif

open Spec

/-! ## C108 -/

theorem std_pub (P : Prims) (k : Bytes) : P.std.x25519Pub k = Algo.x25519Pub k := rfl

theorem didKey_resolved (P : Prims) {did : Str} {k : Bytes} (h : Algo.didKeyX did = some k) :
    (P.didKey.resolve did).bind (·.keyFor c!"X25519") = some k := by
  unfold Prims.didKey
  simp only [h, Option.bind_some, if_true]

theorem didKey_keyFor {P : Prims} {did : Str} {k : Bytes} (h : Algo.didKeyX did = some k) :
    KeyFor P.didKey.std did none k := by
  have h1 := didKey_resolved P h
  rw [Option.bind_eq_some_iff] at h1
  exact .inr ⟨rfl, h1⟩

theorem owns_key {did : Str} {xsk : Bytes} (h : Owns did xsk) : Algo.didKeyX did = some (Algo.x25519Pub xsk) := by
  rcases h with rfl | ⟨pk, rfl, h⟩
  · exact Algo.didKeyX_x (Algo.leBytes_len _ _)
  · rw [Algo.didKeyX_ed, h]

theorem owns_ed {pk xsk : Bytes} (h : Algo.edToX pk = some (Algo.x25519Pub xsk)) : Owns (didOfEd pk) xsk :=
  .inr ⟨pk, rfl, h⟩

theorem owns_x {pk xsk : Bytes} (h : pk = Algo.x25519Pub xsk) : Owns (didOfX pk) xsk := .inl (by rw [h])

/-- C108.  The DID of an Ed25519 key resolves to the public key of the X25519 secret made from the same secret. -/
theorem C108_ed25519 (P : Prims) (sk : Bytes) : Owns (didOfEd (edPublic sk)) (xOfEd sk) ∧
    (P.didKey.resolve (didOfEd (edPublic sk))).bind (·.keyFor c!"X25519") = some (P.std.x25519Pub (xOfEd sk)) := by
  have h := owns_ed (Algo.edToX_public sk)
  refine ⟨h, ?_⟩
  rw [std_pub]
  exact didKey_resolved P (owns_key h)

/-- C108.  The DID of an X25519 key resolves to it. -/
theorem C108_x25519 (P : Prims) (pk : Bytes) (hl : pk.length = 32) :
    (P.didKey.resolve (didOfX pk)).bind (·.keyFor c!"X25519") = some pk :=
  didKey_resolved P (Algo.didKeyX_x hl)

/-- C108.  A DID is read as bytes exactly if it is made of them; so different keys have different DIDs. -/
theorem C108_exact (did : Str) (b : Bytes) : (Algo.didKeyBytes did = some b ↔ did = c!"did:key:z" ++ b58Encode b) ∧
    ∀ pk pk' : Bytes, (didOfEd pk = didOfEd pk' → pk = pk') ∧ didOfEd pk ≠ didOfX pk' :=
  ⟨Algo.didKeyBytes_iff b did, fun pk pk' => ⟨Algo.didOfEd_inj, Algo.didOfEd_ne_x pk pk'⟩⟩

/-! ## C109 -/

theorem owns_keyFor {P : Prims} {did : Str} {xsk : Bytes} (h : Owns did xsk) :
    KeyFor P.didKey.std did none (P.didKey.std.x25519Pub xsk) := by
  rw [std_pub]
  exact didKey_keyFor (owns_key h)

/-- C109.  A message from the owner of one DID to the owners of others is sealed with no other public keys, and the
first recipient reads what the sender wrote with no public key. -/
theorem C109_seal_receive (P : Prims) (hf : ∀ {t u}, P.f64 t = some u → NumTok u) (r : Message.SealRand) (o : HOrd)
    (m : Message) (ssk rsk : Bytes) (alg frm dest : Str) (vk : Option Bytes)
    (hm : m.WF P.f64) (hc : Avoids m.didcomm.other classKeys) (hh : HeaderFixed m.jwm) (hj : m.jwm.typ ≠ .jws)
    (hfrom : m.didcomm.from = some frm) (hal : m.jwm.alg = some alg) (hs : alg ∈ Spec.supportedAlgs)
    (hflat : m.flatJwe = true → m.didcomm.to.length = 1) (hssk : ssk.length = 32) (hrsk : rsk.length = 32)
    (hto : ∀ d ∈ m.didcomm.to, ∃ k, Owns d k) (hfirst : m.didcomm.to.head? = some dest) (hr : Owns dest rsk)
    (hsend : Owns frm ssk) :
    ∃ t rs, m.sealJwe P.didKey.std r ssk none = .ok t ∧
      Message.receive P.didKey.std o t (some rsk) none vk =
        .ok { m with recipients := some rs, flatJwe := false, flatJws := false } := by
  have hl : Laws P.didKey.std := std_laws P.didKey hf
  obtain ⟨t, ht⟩ := C16_seal_total P.didKey.std hl (std_total P.didKey) r m ssk none alg hssk hm.to
    (by intro l hl'; cases hl') hflat hal hs (by
      intro i d hi
      obtain ⟨k, hk⟩ := hto d (List.mem_of_getElem? hi)
      exact ⟨_, hl.pub_len k, owns_keyFor hk⟩)
  obtain ⟨j, rs, -, -, -, h⟩ := C17_every_recipient P.didKey.std hl r m ssk none t frm hm hc hh hj hfrom ht
  exact ⟨t, rs, ht, h 0 dest rsk none vk o (by rw [← hfirst, List.head?_eq_getElem?]) hrsk
    (owns_keyFor hr) (owns_keyFor hsend) (by simp)⟩

theorem seal_signed_keys {P : Prims} (hl : Laws P) (ht : AeadTotal P) {r : Message.SealRand} {o o' : HOrd} {m : Message}
    {did : Bytes → Str} {x : Bytes → Bytes} {sk pk sgk rk : Bytes} {rks : List Bytes} {alg : Str}
    (hp : SignPair P .edDsa sgk pk) (hx : ∀ k, (x k).length = 32) (hk : ∀ k, KeyFor P (did k) none (P.x25519Pub (x k)))
    (hm : m.WF P.f64) (hc : Avoids m.didcomm.other classKeys) (hh : HeaderFixed m.jwm)
    (hfrom : m.didcomm.from = some (did sk)) (hto : m.didcomm.to = (rk :: rks).map did)
    (hkid : m.jwm.kid = some (hexEncode pk)) (hal : m.jwm.alg = some alg) (hs : alg ∈ Spec.supportedAlgs)
    (hflat : m.flatJwe = true → m.didcomm.to.length = 1) :
    ∃ t, m.sealSigned P r o (x sk) none .edDsa sgk = .ok t ∧
      Message.receive P o' t (some (x rk)) none none =
        .ok { m with jwm := JwmHeader.dflt, flatJwe := false, flatJws := false } := by
  obtain ⟨t, ht⟩ := C28_total P hl ht r o m (x sk) none alg .edDsa _ _ hp (hx sk) hm.to (by intro l hl'; cases hl') hflat
    hal hs (by
      intro i d hi
      rw [hto, List.getElem?_map, Option.map_eq_some_iff] at hi
      obtain ⟨k, -, rfl⟩ := hi
      exact ⟨_, hl.pub_len (x k), hk k⟩)
  refine ⟨t, ht, ?_⟩
  obtain ⟨j, rs, -, -, -, h⟩ := C28_seal_signed P hl r o m (x sk) none t _ .edDsa _ _ hp hm hc hh hfrom ht
  exact h 0 _ (x rk) none none o' (by rw [hto]; rfl) (hx rk) (hk rk) (hk sk) (by simp) (.inr ⟨rfl, hkid⟩)

theorem signPair_did {P : Prims} {a : SignAlg} {sk pk : Bytes} (h : SignPair P a sk pk) : SignPair P.didKey.std a sk pk := h

theorem sha512_length (m : Bytes) : (Algo.sha512 m).length = 64 := by
  simp only [Algo.sha512, List.length_append, Algo.beBytes_length]

theorem xOfEd_length (sk : Bytes) : (xOfEd sk).length = 32 := by
  rw [xOfEd, List.length_take, sha512_length]
  rfl

/-- C109.  One secret for each party is enough: the sender signs with it, seals with the X25519 secret made from it, and
names the public key in the header; the first recipient opens and verifies with its own secret only. -/
theorem C109_one_secret (P : Prims) (nonce : Bytes → Bytes → Nat) (hf : ∀ {t u}, P.f64 t = some u → NumTok u)
    (r : Message.SealRand) (o o' : HOrd) (m : Message) (sk rk : Bytes) (rks : List Bytes) (alg : Str)
    (hm : m.WF P.f64) (hc : Avoids m.didcomm.other classKeys) (hh : HeaderFixed m.jwm)
    (hfrom : m.didcomm.from = some (didOfEd (edPublic sk)))
    (hto : m.didcomm.to = (rk :: rks).map fun k => didOfEd (edPublic k))
    (hkid : m.jwm.kid = some (hexEncode (edPublic sk)))
    (hal : m.jwm.alg = some alg) (hs : alg ∈ Spec.supportedAlgs)
    (hflat : m.flatJwe = true → m.didcomm.to.length = 1) (hsk : sk.length = 32) :
    ∃ t, m.sealSigned (P.signed nonce).didKey.std r o (xOfEd sk) none .edDsa (sk ++ edPublic sk) = .ok t ∧
      Message.receive (P.signed nonce).didKey.std o' t (some (xOfEd rk)) none none =
        .ok { m with jwm := JwmHeader.dflt, flatJwe := false, flatJws := false } :=
  seal_signed_keys (P := (P.signed nonce).didKey.std) (did := fun k => didOfEd (edPublic k)) (x := xOfEd)
    (std_laws (P.signed nonce).didKey hf) (std_total (P.signed nonce).didKey) (signPair_did (C104_pair P nonce sk hsk))
    xOfEd_length (fun k => owns_keyFor (owns_ed (Algo.edToX_public k))) hm hc hh hfrom hto hkid hal hs hflat

/-- C109.  The same through a mediator: the mediator opens the outer envelope with its private key only, and the
recipient the inner one. -/
theorem C109_routed (P : Prims) (hf : ∀ {t u}, P.f64 t = some u → NumTok u) (r1 r2 : Message.SealRand) (uuid : Str)
    (o o' : HOrd) (m : Message) (ssk rsk msk : Bytes) (alg frm dest med : Str) (vk vk' : Option Bytes)
    (hm : m.WF P.f64) (hc : Avoids m.didcomm.other classKeys) (hh : HeaderFixed m.jwm) (hj : m.jwm.typ ≠ .jws)
    (hfrom : m.didcomm.from = some frm) (hal : m.jwm.alg = some alg) (hs : alg ∈ Spec.supportedAlgs)
    (hflat : m.flatJwe = true → m.didcomm.to.length = 1) (hssk : ssk.length = 32) (hrsk : rsk.length = 32)
    (hmsk : msk.length = 32) (hto : ∀ d ∈ m.didcomm.to, ∃ k, Owns d k) (hfirst : m.didcomm.to.head? = some dest)
    (hr : Owns dest rsk) (hsend : Owns frm ssk) (hmed : Owns med msk) :
    ∃ t f b md inner rs, m.routedBy P.didKey.std r1 r2 uuid ssk none med none = .ok t ∧
      Message.receive P.didKey.std o t (some msk) none vk = .ok f ∧ f.getBody = .ok b ∧
      (parseJson b).bind decMediated = some md ∧ md.next = dest ∧ utf8Decode md.payload = some inner ∧
      Message.receive P.didKey.std o' inner (some rsk) none vk' =
        .ok { m with recipients := some rs, flatJwe := false, flatJws := false } := by
  have hl : Laws P.didKey.std := std_laws P.didKey hf
  obtain ⟨inner, -, hi, -⟩ := C109_seal_receive P hf r1 o m ssk rsk alg frm dest vk hm hc hh hj hfrom hal hs hflat hssk hrsk
    hto hfirst hr hsend
  obtain ⟨t, ht⟩ := C41_total P.didKey.std hl (std_total P.didKey) r1 r2 uuid m ssk none med none inner hi
    (by rcases hmed with rfl | ⟨pk, rfl, -⟩ <;> exact fun h => by cases h) _ (hl.pub_len msk) (owns_keyFor hmed)
  obtain ⟨f, b, md, inner, rs, h⟩ := C41_recipient_receives P.didKey.std hl r1 r2 uuid m ssk none med none t frm hm hc hh hj
    hfrom ht msk none vk o hmsk (owns_keyFor hmed) (owns_keyFor hsend) dest rsk none vk' o' hfirst
    hrsk (owns_keyFor hr) (owns_keyFor hsend)
  exact ⟨t, f, b, md, inner, rs, ht, h⟩

/-! ## C110 -/

theorem mirror_keys {P : Prims} {pk x : Bytes} (h : Algo.edToX pk = some (Algo.x25519Pub x)) {p : Nat × Nat}
    (hp : Algo.edDecompress pk = some p) (hne : Algo.edCompress (Algo.edNeg p) ≠ pk) : ∃ pk', EdPoint pk' ∧
    didOfEd pk' ≠ didOfEd pk ∧ didOfX (P.std.x25519Pub x) ≠ didOfEd pk ∧
    Owns (didOfEd pk) x ∧ Owns (didOfEd pk') x ∧ Owns (didOfX (P.std.x25519Pub x)) x := by
  obtain ⟨h1, h2⟩ := Algo.edToX_mirror hp
  exact ⟨_, Algo.edDecompress_some.1 ⟨_, h1⟩, fun h => hne (Algo.didOfEd_inj h),
    fun h => Algo.didOfEd_ne_x _ _ h.symm, owns_ed h, owns_ed (h2.trans h), owns_x rfl⟩

/-- C110, as written, is false: for every secret there are two other DIDs that resolve to the same key, one made of the
mirror image of the public key, one made of the X25519 key. -/
theorem C110_one_did_violated (P : Prims) (sk : Bytes) : ∃ pk', EdPoint pk' ∧
    didOfEd pk' ≠ didOfEd (edPublic sk) ∧ didOfX (P.std.x25519Pub (xOfEd sk)) ≠ didOfEd (edPublic sk) ∧
    ∀ did ∈ [didOfEd (edPublic sk), didOfEd pk', didOfX (P.std.x25519Pub (xOfEd sk))], Owns did (xOfEd sk) ∧
      (P.didKey.resolve did).bind (·.keyFor c!"X25519") = some (P.std.x25519Pub (xOfEd sk)) := by
  have h := Algo.edToX_public sk
  obtain ⟨p, hp⟩ := Algo.edDecompress_public sk
  obtain ⟨pk', h1, h2, h3, o1, o2, o3⟩ := mirror_keys (P := P) h hp (Algo.edPublic_mirror hp)
  refine ⟨pk', h1, h2, h3, fun did hd => ?_⟩
  have ho : Owns did (xOfEd sk) := by
    simp only [List.mem_cons, List.not_mem_nil, or_false] at hd
    rcases hd with rfl | rfl | rfl
    · exact o1
    · exact o2
    · exact o3
  exact ⟨ho, by rw [std_pub]; exact didKey_resolved P (owns_key ho)⟩

/-- C110.  What holds: DIDs of Ed25519 keys that resolve to the same key, not zero, are those of one point or of a point
and its mirror image. -/
theorem C110_one_did_partial (P : Prims) (pk pk' k : Bytes) (hk : k ≠ zeroKey) (h1 : EdPoint pk) (h2 : EdPoint pk')
    (h : (P.didKey.resolve (didOfEd pk)).bind (·.keyFor c!"X25519") = some k)
    (h' : (P.didKey.resolve (didOfEd pk')).bind (·.keyFor c!"X25519") = some k) :
    ∃ p q, Algo.edDecompress pk = some p ∧ Algo.edDecompress pk' = some q ∧ (q = p ∨ q = Algo.edNeg p) := by
  have key : ∀ {b : Bytes}, EdPoint b → (P.didKey.resolve (didOfEd b)).bind (·.keyFor c!"X25519") = some k →
      Algo.edToX b = some k := by
    intro b hb h
    obtain ⟨p, hp⟩ := Algo.edDecompress_some.2 hb
    have hx := Algo.edToX_of hp
    rw [didKey_resolved P ((Algo.didKeyX_ed b).trans hx)] at h
    rw [hx, h]
  obtain ⟨p, hp⟩ := Algo.edDecompress_some.2 h1
  obtain ⟨q, hq⟩ := Algo.edDecompress_some.2 h2
  exact ⟨p, q, hp, hq, Algo.edToX_same hp hq ((key h1 h).trans (key h2 h').symm) (by
    rw [key h1 h]
    exact fun h => hk (Option.some.inj h))⟩

/-- C99, as written, is false also for DIDs: what is addressed to the DID of the neutral element is sealed, with the
secret that is known to everyone. -/
theorem C99_weak_did_violated (P : Prims) (hf : ∀ {t u}, P.f64 t = some u → NumTok u) (r : Message.SealRand)
    (m : Message) (ssk : Bytes) (alg : Str) (hsk : ssk.length = 32) (hto : m.didcomm.to = [didOfEd edNeutral])
    (hal : m.jwm.alg = some alg) (hs : alg ∈ Spec.supportedAlgs) :
    (P.didKey.resolve (didOfEd edNeutral)).bind (·.keyFor c!"X25519") = some zeroKey ∧
    (∀ sk, P.didKey.std.x25519 sk zeroKey = zeroKey) ∧ ∃ t, m.sealJwe P.didKey.std r ssk none = .ok t := by
  have hx : Algo.didKeyX (didOfEd edNeutral) = some zeroKey := by
    rw [Algo.didKeyX_ed, Algo.edToX_of edNeutral_read]
    decide +kernel
  have hk := didKey_keyFor (P := P) hx
  refine ⟨didKey_resolved P hx, zero_secret, C16_seal_total P.didKey.std (std_laws P.didKey hf) (std_total P.didKey) r m ssk none alg hsk
    (by rw [hto]; simp) (by intro l hl; cases hl) (fun _ => by rw [hto]; rfl) hal hs ?_⟩
  intro i d hi
  rw [hto] at hi
  have : d = didOfEd edNeutral := List.mem_singleton.1 (List.mem_of_getElem? hi)
  rw [this]
  exact ⟨zeroKey, rfl, hk⟩

/-! ## Examples -/

/-- Alice, Bob and the mediator of the tests (`src/messages/message.rs:890-959`). -/
def aliceDid : Str := c!"did:key:z6MkiTBz1ymuepAQ4HEHYSF1H8quG5GLVVQR3djdX3mDooWp"
def bobDid : Str := c!"did:key:z6MkjchhfUsD6mmvni8mCdXHw216Xrm9bQe2mBH1P5RDjVJG"
def mediatorDid : Str := c!"did:key:z6MknGc3ocHs3zdPiJbnaaqDi58NGb4pk1Sp9WxWufuXSdxf"

/-- Their private keys (`utilities/src/lib.rs:15-23`). -/
def aliceSecret : Bytes := (Algo.b58Decode c!"6QN8DfuN9hjgHgPvLXqgzqYE3jRRGRrmJQZkd5tL8paR").getD []
def bobSecret : Bytes := (Algo.b58Decode c!"HBTcN2MrXNRj9xF9oi8QqYyuEPv3JLLjQKuEgW9oxVKP").getD []
def mediatorSecret : Bytes := (Algo.b58Decode c!"ACa4PPJ1LnPNq1iwS33V3Akh7WtnC71WkKFZ9ccM6sX2").getD []

theorem owns_of {did : Str} {pk xsk : Bytes} (h : Algo.didKeyBytes did = some ([0xed, 0x01] ++ pk))
    (hx : Algo.edToX pk = some (Algo.x25519Pub xsk)) : Owns did xsk :=
  .inr ⟨pk, (Algo.didKeyBytes_iff _ _).1 h, hx⟩

/-- The conversion is the one that the tests rely on. -/
theorem alice_owns : Owns aliceDid aliceSecret :=
  owns_of (pk := ((Algo.didKeyBytes aliceDid).getD []).drop 2) (by decide +kernel) (by decide +kernel)
theorem bob_owns : Owns bobDid bobSecret :=
  owns_of (pk := ((Algo.didKeyBytes bobDid).getD []).drop 2) (by decide +kernel) (by decide +kernel)
theorem mediator_owns : Owns mediatorDid mediatorSecret :=
  owns_of (pk := ((Algo.didKeyBytes mediatorDid).getD []).drop 2) (by decide +kernel) (by decide +kernel)

/-- C108: the DID of the X25519 key of Alice, whose last part is the name of the key at `tests/send_receive.rs:68`. -/
example : didOfX (Algo.x25519Pub aliceSecret) = c!"did:key:z6LShs9GGnqk85isEBzzshkuVWrVKsRp24GnDuHk8QWkARMW" := by
  symm
  rw [didOfX, ← Algo.didKeyBytes_iff]
  decide +kernel

/-- C108: texts that are read and texts that are not. -/
example : b58Encode (utf8 c!"Hello World!") = c!"2NEpo7TZRRrLZSi2U" ∧ b58Encode [0, 0, 0x28, 0x7f, 0xb4, 0xcd] = c!"11233QC4" ∧
    Algo.b58Decode c!"0OIl" = none ∧ Algo.didKeyX c!"did:key:z6Mk" = none ∧ Algo.didKeyX c!"did:web:a" = none := by
  refine ⟨(Algo.b58_iff _ _).1 (by decide +kernel), (Algo.b58_iff _ _).1 (by decide +kernel), ?_⟩
  decide +kernel

/-- A message from Alice to Bob and the mediator, as in the tests. -/
def didMessage : Message :=
  { exampleMessage with didcomm := { exampleMessage.didcomm with «to» := [bobDid, mediatorDid], «from» := some aliceDid } }

theorem didMessage_wf (F : Str → Option Str) : didMessage.WF F :=
  have h := exampleMessage_wf F
  ⟨h.jwm, h.other, by simp [didMessage], h.recipients, h.canon, h.nums, h.depth⟩

theorem didMessage_to : ∀ d ∈ didMessage.didcomm.to, ∃ k, Owns d k := by
  rintro d (_ | ⟨_, _ | ⟨_, h⟩⟩)
  · exact ⟨_, bob_owns⟩
  · exact ⟨_, mediator_owns⟩
  · cases h

/-- C109: what the tests `send_receive_didkey_multiple_recipients_test` and `mediated_didkey_test` do
(`src/messages/message.rs:889-959`), for every random choice. -/
example (r : Message.SealRand) (o : HOrd) (vk : Option Bytes) : ∃ t rs,
    didMessage.sealJwe (toy fun _ => none).didKey.std r aliceSecret none = .ok t ∧
    Message.receive (toy fun _ => none).didKey.std o t (some bobSecret) none vk =
      .ok { didMessage with recipients := some rs } :=
  C109_seal_receive (toy fun _ => none) (toy_laws fun _ => none).f64_tok r o didMessage aliceSecret bobSecret
    c!"ECDH-1PU+XC20PKW" aliceDid bobDid vk (didMessage_wf _) (by decide)
    ⟨(by intro k h; cases h), (by intro k h; cases h)⟩ (by decide) rfl rfl (by decide) (by intro h; cases h)
    (by decide +kernel) (by decide +kernel) didMessage_to rfl bob_owns alice_owns

example (r1 r2 : Message.SealRand) (uuid : Str) (o o' : HOrd) (vk vk' : Option Bytes) : ∃ t f b md inner rs,
    didMessage.routedBy (toy fun _ => none).didKey.std r1 r2 uuid aliceSecret none mediatorDid none = .ok t ∧
    Message.receive (toy fun _ => none).didKey.std o t (some mediatorSecret) none vk = .ok f ∧ f.getBody = .ok b ∧
    (parseJson b).bind decMediated = some md ∧ md.next = bobDid ∧ utf8Decode md.payload = some inner ∧
    Message.receive (toy fun _ => none).didKey.std o' inner (some bobSecret) none vk' =
      .ok { didMessage with recipients := some rs } :=
  C109_routed (toy fun _ => none) (toy_laws fun _ => none).f64_tok r1 r2 uuid o o' didMessage aliceSecret bobSecret
    mediatorSecret c!"ECDH-1PU+XC20PKW" aliceDid bobDid mediatorDid vk vk' (didMessage_wf _) (by decide)
    ⟨(by intro k h; cases h), (by intro k h; cases h)⟩ (by decide) rfl rfl (by decide) (by intro h; cases h)
    (by decide +kernel) (by decide +kernel) (by decide +kernel) didMessage_to rfl bob_owns alice_owns mediator_owns

/-- C109: a message to which the theorem on one secret applies. -/
example (nonce : Bytes → Bytes → Nat) (r : Message.SealRand) (o o' : HOrd) (sk rk : Bytes) (hsk : sk.length = 32) :
    ∃ (m : Message) (t : Str), m.didcomm.from = some (didOfEd (edPublic sk)) ∧ m.didcomm.to = [didOfEd (edPublic rk)] ∧
    m.sealSigned ((toy fun _ => none).signed nonce).didKey.std r o (xOfEd sk) none .edDsa (sk ++ edPublic sk) = .ok t ∧
    Message.receive ((toy fun _ => none).signed nonce).didKey.std o' t (some (xOfEd rk)) none none =
        .ok { m with jwm := JwmHeader.dflt, flatJwe := false, flatJws := false } := by
  have h := exampleMessage_wf (fun _ => none)
  have hfix : ∀ k, HeaderFixed { exampleMessage.jwm with kid := some k } := fun k =>
    ⟨(by intro k h; cases h), (by intro k h; cases h)⟩
  obtain ⟨t, h1, h2⟩ := C109_one_secret (toy fun _ => none) nonce (toy_laws fun _ => none).f64_tok r o o'
    { exampleMessage with
      didcomm := { exampleMessage.didcomm with «to» := [didOfEd (edPublic rk)], «from» := some (didOfEd (edPublic sk)) }
      jwm := { exampleMessage.jwm with kid := some (hexEncode (edPublic sk)) } } sk rk [] c!"ECDH-1PU+XC20PKW"
    ⟨⟨(by intro k h; cases h), (by intro k h; cases h)⟩, h.other, List.cons_ne_nil _ _, h.recipients, h.canon, h.nums, h.depth⟩
    (show Avoids exampleMessage.didcomm.other classKeys by decide) (hfix _) rfl rfl rfl rfl (by decide) (fun h => by cases h) hsk
  exact ⟨_, t, rfl, rfl, h1, h2⟩

/-- C110: the two DIDs of one key of Alice, and a mirror image. -/
example (P : Prims) (o : Bytes) : ∃ did did', did ≠ did' ∧ Owns did (xOfEd o) ∧ Owns did' (xOfEd o) := by
  obtain ⟨pk', -, h, -, h1⟩ := C110_one_did_violated P o
  exact ⟨_, _, h, (h1 _ (by simp)).1, (h1 _ (by simp)).1⟩

example : Owns (didOfX (Algo.x25519Pub aliceSecret)) aliceSecret ∧ didOfX (Algo.x25519Pub aliceSecret) ≠ aliceDid := by
  refine ⟨.inl rfl, fun h => ?_⟩
  have h1 : aliceDid = c!"did:key:z" ++ b58Encode ([0xed, 0x01] ++ ((Algo.didKeyBytes aliceDid).getD []).drop 2) :=
    (Algo.didKeyBytes_iff _ _).1 (by decide +kernel)
  exact Algo.didOfEd_ne_x _ _ (h.trans h1).symm

/-- C99: a message to the weak DID that is sealed. -/
example (r : Message.SealRand) : ∃ t, { exampleMessage with didcomm := { exampleMessage.didcomm with «to» := [didOfEd edNeutral] } }.sealJwe
    (toy fun _ => none).didKey.std r aliceSecret none = .ok t :=
  (C99_weak_did_violated (toy fun _ => none) (toy_laws fun _ => none).f64_tok r _ aliceSecret c!"ECDH-1PU+XC20PKW"
    (by decide +kernel) rfl rfl (by decide)).2.2

end Verif
