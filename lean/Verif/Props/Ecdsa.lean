import Verif.Lemma.Algo.EcdsaTotal
import Verif.Model.Algo.Prims
import Verif.Props.Verify

/-!
# C102, C103: ECDSA as the standards have it

`P.signed nonce` are primitives whose ES256 and ES256K are those of SEC 1, with an arbitrary source of nonces.
-/

namespace Verif

open Spec

/-- Signatures of a secret are accepted under its public key. -/
theorem signed_verify {P : Prims} {nonce : Bytes → Bytes → Nat} {a : SignAlg} {c : Algo.Curve} (hc : curveOf a = some c)
    {short : Bool} {sk pk b s : Bytes} (hk : ecPublic c short sk = some pk)
    (h : a.signer (P.signed nonce) sk b = .ok s) : (P.signed nonce).verify a pk b s = some true := by
  unfold SignAlg.signer at h
  rw [Res.ofOpt_eq_ok] at h
  cases a with
  | edDsa => cases hc
  | es256 => obtain rfl := Option.some.inj hc; exact Algo.good_p256.sign_verify_bytes hk h
  | es256k => obtain rfl := Option.some.inj hc; exact Algo.good_k256.sign_verify_bytes hk h

/-- C102.  Whatever nonces are used: a message signed with ES256 or ES256K verifies under the public key of the
secret, be that written in the long or in the short form, and is received with that key, given or named in
`kid`. -/
theorem C102_sign_verify (P : Prims) (nonce : Bytes → Bytes → Nat) (a : SignAlg) (c : Algo.Curve)
    (hc : curveOf a = some c) (short : Bool) (sk pk : Bytes) (hk : ecPublic c short sk = some pk) (m : Message)
    (hm : m.WF P.f64) (hf : HeaderFixed m.jwm) (o : HOrd) (t : Str)
    (ht : (m.asJws a).sign o (a.signer (P.signed nonce)) sk = .ok t) :
    (∀ o', Message.verify (P.signed nonce) o' (utf8 t) pk =
      .ok { m with jwm := JwmHeader.dflt, flatJwe := false, flatJws := false }) ∧
    ∀ o' dk ek vk, (vk = some pk ∨ vk = none ∧ m.jwm.kid = some (hexEncode pk)) →
      Message.receive (P.signed nonce) o' t dk ek vk =
        .ok { m with jwm := JwmHeader.dflt, flatJwe := false, flatJws := false } := by
  have hv : ∀ o', Message.verify (P.signed nonce) o' (utf8 t) pk =
      .ok { m with jwm := JwmHeader.dflt, flatJwe := false, flatJws := false } := by
    obtain ⟨-, alg, ha, hofs⟩ := signName (a := a) (h := m.jwm)
    have hjw : (m.jwm.asSigned a).WF := by cases a <;> exact hm.jwm
    have hjf : HeaderFixed (m.jwm.asSigned a) := by cases a <;> exact hf
    have hw : (m.asJws a).WF P.f64 := ⟨hjw, hm.other, hm.to, hm.recipients, hm.canon, hm.nums, hm.depth⟩
    exact fun o' => verify_signed (signed_verify hc hk) hw hjf ha hofs ht o'
  exact ⟨hv, fun o' dk ek vk hvk => receive_signed (P := P.signed nonce) hm ht hv hvk⟩

/-- C102.  Which secrets sign: exactly those of 32 bytes that are a number from one to the order of the curve less
one.  Each has a public key in both forms and for every message a nonce that gives a signature of 64 bytes;
all others are refused with every nonce. -/
theorem C102_secrets (P : Prims) (a : SignAlg) (c : Algo.Curve) (hc : curveOf a = some c) (sk : Bytes) :
    (sk.length = 32 ∧ 0 < Algo.beNat sk ∧ Algo.beNat sk < c.n →
      (∀ short, ∃ pk, ecPublic c short sk = some pk ∧ pk.length = if short then 33 else 65) ∧
      ∀ b, ∃ k sig, sig.length = 64 ∧ ∀ nonce : Bytes → Bytes → Nat, nonce sk b = k →
        a.signer (P.signed nonce) sk b = .ok sig) ∧
    (¬ (sk.length = 32 ∧ 0 < Algo.beNat sk ∧ Algo.beNat sk < c.n) → ∀ b nonce,
      ∃ e, a.signer (P.signed nonce) sk b = .err e) := by
  constructor
  · rintro ⟨h1, h2, h3⟩
    have hd : c.ofSecret sk = some (Algo.beNat sk) := Algo.ofSecret_iff.2 ⟨h1, h2, h3, rfl⟩
    have hlen : ∀ short pk, ecPublic c short sk = some pk → pk.length = if short then 33 else 65 := by
      intro short pk h
      unfold ecPublic at h
      rw [hd] at h
      simp only at h
      split at h
      · cases h
      · obtain rfl := Option.some.inj h
        cases short <;> simp
    cases a with
    | edDsa => cases hc
    | es256 =>
      obtain rfl := Option.some.inj hc
      refine ⟨fun short => ?_, fun b => ?_⟩
      · obtain ⟨pk, h⟩ := Algo.good_p256.public_exists hd short
        exact ⟨pk, h, hlen short pk h⟩
      · obtain ⟨k, sig, h⟩ := Algo.good_p256.sign_exists Algo.two_p256 hd false b
        refine ⟨k, sig, ?_, fun nonce hn => ?_⟩
        · obtain ⟨r, s, rfl, -⟩ := Algo.good_p256.sign_shape (h (fun _ _ => k) rfl)
          simp
        · unfold SignAlg.signer
          rw [Res.ofOpt_eq_ok]
          exact h nonce hn
    | es256k =>
      obtain rfl := Option.some.inj hc
      refine ⟨fun short => ?_, fun b => ?_⟩
      · obtain ⟨pk, h⟩ := Algo.good_k256.public_exists hd short
        exact ⟨pk, h, hlen short pk h⟩
      · obtain ⟨k, sig, h⟩ := Algo.good_k256.sign_exists Algo.two_k256 hd true b
        refine ⟨k, sig, ?_, fun nonce hn => ?_⟩
        · obtain ⟨r, s, rfl, -⟩ := Algo.good_k256.sign_shape (h (fun _ _ => k) rfl)
          simp
        · unfold SignAlg.signer
          rw [Res.ofOpt_eq_ok]
          exact h nonce hn
  · intro h b nonce
    have hd : c.ofSecret sk = none := if_neg h
    cases a with
    | edDsa => cases hc
    | es256 =>
      obtain rfl := Option.some.inj hc
      refine ⟨.edDsa, show Res.ofOpt _ (Algo.p256.sign false nonce sk b) = _ from ?_⟩
      unfold Algo.Curve.sign; rw [hd]; rfl
    | es256k =>
      obtain rfl := Option.some.inj hc
      refine ⟨.generic "signature error", show Res.ofOpt _ (Algo.k256.sign true nonce sk b) = _ from ?_⟩
      unfold Algo.Curve.sign; rw [hd]; rfl

/-! ## C103 -/

/-- The signer that hands out the mirrored signatures. -/
def mirrored (c : Algo.Curve) (signer : Bytes → Bytes → Res Bytes) (sk b : Bytes) : Res Bytes :=
  (signer sk b).bind fun s => .ok (mirror c s)

theorem mirror_bytes {c : Algo.Curve} {r s : Nat} (hs : s < 2 ^ 256) :
    mirror c (Algo.beBytes 32 r ++ Algo.beBytes 32 s) = Algo.beBytes 32 r ++ Algo.beBytes 32 (c.n - s) := by
  unfold mirror
  rw [Algo.take_beBytes, Algo.drop_beBytes, Algo.beNat_beBytes hs]

theorem mirror_ne {c : Algo.Curve} (h : Algo.Good c) {low : Bool} {nonce : Bytes → Bytes → Nat} {sk m sig : Bytes}
    (hs : c.sign low nonce sk m = some sig) : mirror c sig ≠ sig := by
  obtain ⟨r, s, rfl, hr, hrn, hs0, hsn⟩ := h.sign_shape hs
  have hn := h.n_lt
  rw [mirror_bytes (hsn.trans hn)]
  intro he
  have he := congrArg Algo.beNat (List.append_cancel_left he)
  rw [Algo.beNat_beBytes (by omega), Algo.beNat_beBytes (hsn.trans hn)] at he
  rcases h.prime_n.eq_two_or_odd with h' | h'
  · have := h.n_gt; omega
  · omega

/-- Texts with different signatures are different. -/
theorem jwsOf_ne {m : Message} (hm : m.jwm.WF) (hto : m.didcomm.to ≠ []) {p : Str} {s s' : Bytes} (o o' : HOrd)
    (h : s ≠ s') : (Spec.jwsOf m p s).text o ≠ (Spec.jwsOf m p s').text o' := by
  intro he
  obtain ⟨j, hj, -, hs⟩ := jwsOf_signatures (F := fun t => some t) (p := p) (sig := s) o hm
  obtain ⟨j', hj', -, hs'⟩ := jwsOf_signatures (F := fun t => some t) (p := p) (sig := s') o' hm
  have e : some j = some j' := by rw [← hj, ← hj', ← ofText_jws, ← ofText_jws, he]
  obtain rfl := Option.some.inj e
  rw [hs] at hs'
  have hs' := Res.ok.inj hs'
  by_cases hfl : m.flatJws = true
  · rw [if_pos hfl, if_pos hfl] at hs'
    injection hs' with hs' _
    exact h (congrArg Signature.signature hs')
  · rw [if_neg hfl, if_neg hfl] at hs'
    obtain ⟨x, l, hx⟩ := List.exists_cons_of_ne_nil hto
    rw [hx, List.map_cons, List.map_cons] at hs'
    injection hs' with hs' _
    exact h (congrArg Signature.signature hs')

/-- C103 fails for ES256: with every message that is signed there is another text, made of public data only, that
verifies to the same message under the same key. -/
theorem C103_mirror_violated (P : Prims) (nonce : Bytes → Bytes → Nat) (short : Bool) (sk pk : Bytes)
    (hk : ecPublic Algo.p256 short sk = some pk) (m : Message)
    (hm : m.WF P.f64) (hf : HeaderFixed m.jwm) (o : HOrd) (t : Str)
    (ht : (m.asJws .es256).sign o (SignAlg.es256.signer (P.signed nonce)) sk = .ok t) :
    ∃ t', t' ≠ t ∧ (m.asJws .es256).sign o (mirrored Algo.p256 (SignAlg.es256.signer (P.signed nonce))) sk = .ok t' ∧
      (∀ o', Message.verify (P.signed nonce) o' (utf8 t') pk =
        .ok { m with jwm := JwmHeader.dflt, flatJwe := false, flatJws := false }) ∧
      ∀ o' dk ek vk, (vk = some pk ∨ vk = none ∧ m.jwm.kid = some (hexEncode pk)) →
        Message.receive (P.signed nonce) o' t' dk ek vk =
          .ok { m with jwm := JwmHeader.dflt, flatJwe := false, flatJws := false } := by
  obtain ⟨hal, sig, hsig, rfl⟩ := sign_ok ht
  have hjw : (m.jwm.asSigned .es256).WF := hm.jwm
  have hw : (m.asJws .es256).WF P.f64 := ⟨hjw, hm.other, hm.to, hm.recipients, hm.canon, hm.nums, hm.depth⟩
  have hs := sign_of (o := o) (m := m.asJws .es256) (signer := mirrored Algo.p256 (SignAlg.es256.signer (P.signed nonce)))
    (key := sk) (sig := mirror Algo.p256 sig) hal (by unfold mirrored; rw [hsig]; rfl)
  obtain ⟨-, alg, ha, hofs⟩ := signName (a := .es256) (h := m.jwm)
  have hv : ∀ o', Message.verify (P.signed nonce) o' (utf8 ((Spec.jwsOf (m.asJws .es256)
      (Spec.payloadText (o.sub 1) (m.asJws .es256)) (mirror Algo.p256 sig)).text (o.sub 2))) pk =
      .ok { m with jwm := JwmHeader.dflt, flatJwe := false, flatJws := false } := by
    intro o'
    refine verify_signed (P := P.signed nonce) (a := .es256) (fun {b s} h => ?_) hw hf ha hofs hs o'
    unfold mirrored at h
    cases h1 : SignAlg.es256.signer (P.signed nonce) sk b with
    | err e => rw [h1] at h; cases h
    | panic => rw [h1] at h; cases h
    | ok s1 =>
      rw [h1] at h
      obtain rfl := Res.ok.inj h
      have hv := signed_verify (P := P) (a := .es256) rfl hk h1
      unfold SignAlg.signer at h1
      rw [Res.ofOpt_eq_ok] at h1
      obtain ⟨r, s, rfl, hr, hrn, hs0, hsn⟩ := Algo.good_p256.sign_shape h1
      rw [mirror_bytes (hsn.trans Algo.good_p256.n_lt)]
      have := (Algo.good_p256.verify_mirror_bytes (low := false) (m := b) hk hr hrn hs0 hsn).1
      exact this.symm.trans hv
  unfold SignAlg.signer at hsig
  rw [Res.ofOpt_eq_ok] at hsig
  exact ⟨_, jwsOf_ne (m := m.asJws .es256) hjw hm.to _ _ (mirror_ne Algo.good_p256 hsig), hs, hv,
    fun o' dk ek vk hvk => receive_signed (P := P.signed nonce) hm hs hv hvk⟩

/-- C103 holds for ES256K: of every signature that is made the mirrored one is refused, -/
theorem C103_mirror_partial (P : Prims) (nonce : Bytes → Bytes → Nat) (short : Bool) (sk pk : Bytes)
    (hk : ecPublic Algo.k256 short sk = some pk) (b sig : Bytes)
    (h : SignAlg.es256k.signer (P.signed nonce) sk b = .ok sig) :
    SignAlg.es256k.validator (P.signed nonce) pk b sig = .ok true ∧
    SignAlg.es256k.validator (P.signed nonce) pk b (mirror Algo.k256 sig) = .ok false := by
  have hv := signed_verify (P := P) (a := .es256k) rfl hk h
  unfold SignAlg.validator
  rw [hv]
  refine ⟨rfl, ?_⟩
  unfold SignAlg.signer at h
  rw [Res.ofOpt_eq_ok] at h
  obtain ⟨r, s, rfl, hr, hrn, hs0, hsn⟩ := Algo.good_k256.sign_shape h
  rw [mirror_bytes (hsn.trans Algo.good_k256.n_lt)]
  rw [show (P.signed nonce).verify .es256k pk b _ = some false from
    (Algo.good_k256.verify_mirror_bytes (low := true) (m := b) hk hr hrn hs0 hsn).2 rfl hv]
  rfl

/-- and the text with it. -/
theorem C103_text_partial (P : Prims) (nonce : Bytes → Bytes → Nat) (short : Bool) (sk pk : Bytes)
    (hk : ecPublic Algo.k256 short sk = some pk) (m : Message) (hm : m.WF P.f64) (hf : HeaderFixed m.jwm) (o : HOrd)
    (t : Str) (ht : (m.asJws .es256k).sign o (mirrored Algo.k256 (SignAlg.es256k.signer (P.signed nonce))) sk = .ok t)
    (o' : HOrd) (x : Message) : Message.verify (P.signed nonce) o' (utf8 t) pk ≠ .ok x := by
  intro hx
  obtain ⟨b, sig, hsig, hacc⟩ := signed_accepting (P.signed nonce) .es256k _ sk m hm hf o t ht
  have h1 := ((hacc o' pk x).1 hx).1
  unfold mirrored at hsig
  cases h2 : SignAlg.es256k.signer (P.signed nonce) sk b with
  | err e => rw [h2] at hsig; cases hsig
  | panic => rw [h2] at hsig; cases hsig
  | ok s1 =>
    rw [h2] at hsig
    obtain rfl := Res.ok.inj hsig
    have h3 := (C103_mirror_partial P nonce short sk pk hk b s1 h2).2
    unfold SignAlg.validator at h3
    rw [Res.ofOpt_eq_ok, h1] at h3
    cases h3

/-! ## Examples -/

/-- The key of RFC 6979, appendix A.2.5. -/
def rfcKey : Bytes := Algo.beBytes 32 0xC9AFA9D845BA75166B5C215767B1D6934E50C3DB36E89B127B8A622B120F6721

/-- A source that always gives the nonce of RFC 6979, appendix A.2.5, for the message "sample". -/
def rfcNonce (_ _ : Bytes) : Nat := 0xA6E3C57DD01ABE90086538398355DD4C3B17AA873382B0F24D6129493D8AAD60 - 1

/-- The public key and the signature of RFC 6979, appendix A.2.5, come out. -/
example : ecPublic Algo.p256 true rfcKey =
      some (3 :: Algo.beBytes 32 0x60FED4BA255A9D31C961EB74C6356D68C049B8923B61FA6CE669622E60F29FB6) ∧
    ecPublic Algo.p256 false rfcKey =
      some (4 :: Algo.beBytes 32 0x60FED4BA255A9D31C961EB74C6356D68C049B8923B61FA6CE669622E60F29FB6 ++
        Algo.beBytes 32 0x7903FE1008B8BC99A41AE9E95628BC64F2F1B20C2D7E9F5177A3C294D4462299) ∧
    Algo.p256.sign false rfcNonce rfcKey (utf8 c!"sample") =
      some (Algo.beBytes 32 0xEFD48B2AACB6A8FD1140DD9CD45E81D69D2C877B56AAF991C34D0EA84EAF3716 ++
        Algo.beBytes 32 0xF7CB1C942D657C41D436C7A1B6E29F65F3E900DBB9AFF4064DC4AB2F843ACDA8) := by
  decide +kernel

/-- C102 and C103 apply: there is a source of nonces with which a message is signed. -/
example (P : Prims) (hm : richMessage.WF P.f64) : ∃ nonce pk t t', ecPublic Algo.p256 true rfcKey = some pk ∧
    (richMessage.asJws .es256).sign HOrd.id (SignAlg.es256.signer (P.signed nonce)) rfcKey = .ok t ∧
    Message.verify (P.signed nonce) HOrd.rev (utf8 t) pk =
      .ok { richMessage with jwm := JwmHeader.dflt, flatJwe := false, flatJws := false } ∧ t' ≠ t ∧
    Message.verify (P.signed nonce) HOrd.rev (utf8 t') pk =
      .ok { richMessage with jwm := JwmHeader.dflt, flatJwe := false, flatJws := false } := by
  have hs := (C102_secrets P .es256 Algo.p256 rfl rfcKey).1 (by decide +kernel)
  obtain ⟨pk, hk, -⟩ := hs.1 true
  obtain ⟨k, sig, -, hsig⟩ := hs.2 (Message.signingInput
    (headerB64 (HOrd.id.sub 0) (Spec.signedHeader (richMessage.asJws .es256)))
    (Spec.payloadText (HOrd.id.sub 1) (richMessage.asJws .es256)))
  have ht := sign_of (o := HOrd.id) (m := richMessage.asJws .es256) (key := rfcKey) (sig := sig)
    (signer := SignAlg.es256.signer (P.signed fun _ _ => k)) signName.1 (hsig _ rfl)
  have hf : HeaderFixed richMessage.jwm := ⟨(by intro k h; cases h), (by intro k h; cases h)⟩
  obtain ⟨t', hne, -, hv, -⟩ := C103_mirror_violated P _ true rfcKey pk hk richMessage hm hf _ _ ht
  exact ⟨_, pk, _, t', hk, ht, (C102_sign_verify P _ .es256 _ rfl true rfcKey pk hk richMessage hm hf _ _ ht).1 _, hne,
    hv _⟩

/-- C103 applies to ES256K, with the secret one. -/
example (P : Prims) (b : Bytes) : ∃ nonce sk pk sig, ecPublic Algo.k256 true sk = some pk ∧
    SignAlg.es256k.signer (P.signed nonce) sk b = .ok sig ∧
    SignAlg.es256k.validator (P.signed nonce) pk b (mirror Algo.k256 sig) = .ok false := by
  have hs := (C102_secrets P .es256k Algo.k256 rfl (Algo.beBytes 32 1)).1 (by decide +kernel)
  obtain ⟨pk, hk, -⟩ := hs.1 true
  obtain ⟨k, sig, -, hsig⟩ := hs.2 b
  exact ⟨fun _ _ => k, _, pk, sig, hk, hsig _ rfl, (C103_mirror_partial P _ true _ pk hk b sig (hsig _ rfl)).2⟩

end Verif
