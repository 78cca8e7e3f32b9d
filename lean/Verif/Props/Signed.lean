import Verif.Props.Exact
import Verif.Props.Accept

/-!
# Exactly when signed input is accepted

C29: which texts that are classified as signed `receive` accepts, and with which errors it refuses them.
-/

namespace Verif

open Spec

/-- The key under which a signature with this `kid` is checked: the one given to `receive`, else the
hex-decoded `kid`. -/
def Spec.CheckKey (vk : Option Bytes) (kid : Option Str) (k : Bytes) : Prop :=
  vk = some k ∨ vk = none ∧ ∃ x, kid = some x ∧ hexDecode x = some k

/-- The text is a message that carries a JWS as body, and that JWS verifies as `v`. -/
def Spec.CarrierVerifies (P : Prims) (o : HOrd) (cur : Str) (vk : Option Bytes) (v : Message) : Prop :=
  ∃ c k, Message.ofText P.f64 cur = some c ∧ c.jwm.alg ≠ none ∧ Spec.CheckKey vk c.jwm.kid k ∧
    Message.verify P o (utf8 (printJson c.body)) k = .ok v

/-- The text is not a message but a JWS, and it verifies as `v` under the key that goes with its signature
number `i`; with every signature before it that names an algorithm goes a key under which it does not. -/
def Spec.JwsVerifies (P : Prims) (o : HOrd) (cur : Str) (vk : Option Bytes) (v : Message) : Prop :=
  Message.ofText P.f64 cur = none ∧ ∃ (j : Jws) (i : Nat) (x : Signature) (k : Bytes),
    Jws.ofText P.f64 cur = some j ∧ (Spec.signatures j)[i]? = some x ∧ x.getAlg ≠ none ∧
    Spec.CheckKey vk x.getKid k ∧ Message.verify P (Spec.ordAt o i) (utf8 cur) k = .ok v ∧
    ∀ (n : Nat) (y : Signature), n < i → (Spec.signatures j)[n]? = some y → y.getAlg ≠ none →
      ∃ k', Spec.CheckKey vk y.getKid k' ∧ ∀ w, Message.verify P (Spec.ordAt o n) (utf8 cur) k' ≠ .ok w

theorem verifyEach_iff {P : Prims} {b : Bytes} {key : Option Bytes} {l : List Signature} {o : HOrd}
    {v : Message} :
    Message.verifyEach P b key o l = .ok (some v) ↔
      ∃ (i : Nat) (x : Signature) (k : Bytes), l[i]? = some x ∧ x.getAlg ≠ none ∧
        Spec.CheckKey key x.getKid k ∧ Message.verify P (Spec.ordAt o i) b k = .ok v ∧
        ∀ (n : Nat) (y : Signature), n < i → l[n]? = some y → y.getAlg ≠ none →
          ∃ k', Spec.CheckKey key y.getKid k' ∧ ∀ w, Message.verify P (Spec.ordAt o n) b k' ≠ .ok w := by
  induction l generalizing o with
  | nil => simp [Message.verifyEach]
  | cons s l ih =>
    unfold Message.verifyEach
    constructor
    · intro h
      split at h
      · rename_i ha
        obtain ⟨i, x, k, h1, h2, h3, h4, h5⟩ := ih.1 h
        refine ⟨i + 1, x, k, h1, h2, h3, h4, ?_⟩
        intro n y hn hy hya
        cases n with
        | zero =>
          obtain rfl : s = y := Option.some.inj hy
          exact absurd ha hya
        | succ n => exact h5 n y (by omega) hy hya
      · rename_i a ha
        rw [Res.bind_eq_ok] at h
        obtain ⟨k, hk, h⟩ := h
        split at h
        · rename_i m hm
          obtain rfl := Option.some.inj (Res.ok.inj h)
          exact ⟨0, s, k, rfl, by rw [ha]; simp, signingKey_ok.1 hk, hm, by intro n y hn; omega⟩
        · rename_i e he
          obtain ⟨i, x, k', h1, h2, h3, h4, h5⟩ := ih.1 h
          refine ⟨i + 1, x, k', h1, h2, h3, h4, ?_⟩
          intro n y hn hy hya
          cases n with
          | zero =>
            obtain rfl : s = y := Option.some.inj hy
            exact ⟨k, signingKey_ok.1 hk, by
              intro w hw
              have hw : Message.verify P (o.sub 0) b k = .ok w := hw
              rw [he] at hw; cases hw⟩
          | succ n => exact h5 n y (by omega) hy hya
        · cases h
    · rintro ⟨i, x, k, h1, h2, h3, h4, h5⟩
      cases i with
      | zero =>
        obtain rfl : s = x := Option.some.inj h1
        have h4 : Message.verify P (o.sub 0) b k = .ok v := h4
        cases ha : s.getAlg with
        | none => exact absurd ha h2
        | some a => simp only [signingKey_ok.2 h3, Res.bind_ok, h4]
      | succ i =>
        have hrec : Message.verifyEach P b key (o.sub 1) l = .ok (some v) :=
          ih.2 ⟨i, x, k, h1, h2, h3, h4, fun n y hn hy hya => h5 (n + 1) y (by omega) hy hya⟩
        cases ha : s.getAlg with
        | none => exact hrec
        | some a =>
          obtain ⟨k', hk', hw⟩ := h5 0 s (by omega) rfl (by rw [ha]; simp)
          have hw : ∀ w, Message.verify P (o.sub 0) b k' ≠ .ok w := hw
          simp only [signingKey_ok.2 hk', Res.bind_ok]
          cases hv : Message.verify P (o.sub 0) b k' with
          | ok w => exact absurd hv (hw w)
          | err e => exact hrec
          | panic => exact absurd hv (verify_ne_panic _ _ _ _)

theorem verifiedOf_accepts {P : Prims} {o' : HOrd} {cur : Str} {vk : Option Bytes} {v : Message} :
    Message.verifiedOf P o' cur vk = .ok (some v) ↔
      Spec.CarrierVerifies P o' cur vk v ∨ Spec.JwsVerifies P o' cur vk v := by
  unfold Message.verifiedOf
  constructor
  · intro h
    split at h
    · rename_i c hm
      split at h
      · cases h
      · rename_i ha
        simp only [Message.getBody, Res.bind_ok, Res.bind_eq_ok, Res.pure_eq, Res.ok.injEq,
          Option.some.injEq] at h
        obtain ⟨k, hk, v', hv, rfl⟩ := h
        exact .inl ⟨c, k, hm, by rintro h'; rw [h'] at ha; exact ha rfl, signingKey_ok.1 hk, hv⟩
    · rename_i hm
      split at h
      · rename_i j hj
        rw [Res.bind_eq_ok] at h
        obtain ⟨l, hl, h⟩ := h
        obtain ⟨i, x, k, h'⟩ := verifyEach_iff.1 h
        rw [← signaturesOf_ok hl] at h'
        exact .inr ⟨hm, j, i, x, k, hj, h'⟩
      · cases h
  · rintro (⟨c, k, hm, ha, hk, hv⟩ | ⟨hm, j, i, x, k, hj, h1, h'⟩)
    · simp only [hm, if_neg (show ¬c.jwm.alg.isNone = true by
        intro h; exact ha (by simpa using h)), Message.getBody, Res.bind_ok, signingKey_ok.2 hk, hv]
      rfl
    · have hl : Message.signaturesOf j = .ok (Spec.signatures j) := by
        unfold Spec.signatures at h1 ⊢
        unfold Message.signaturesOf
        cases hs : j.signatures with
        | some l => rfl
        | none =>
          cases hs' : j.signature with
          | some y => rfl
          | none => simp [hs, hs'] at h1
      simp only [hm, hj, hl, Res.bind_ok]
      exact verifyEach_iff.2 ⟨i, x, k, h1, h'⟩

/-- C29, exactly: text that is classified as signed, after opening if it was encrypted, is accepted if and
only if it is a message with an `alg` whose body verifies as a JWS, or it is no message but a JWS that
verifies under the key that goes with one of its signatures, a key being at hand for each one before; the
result is then the verified message, as read back from its text. -/
theorem C29_accepted_iff (P : Prims) (o : HOrd) (s cur : Str) (sk ek vk : Option Bytes) (m : Message)
    (hcur : Message.decryptStep P (o.sub 0) s sk ek = .ok cur)
    (hc : Message.messageType P cur = .ok .jws) :
    Message.receive P o s sk ek vk = .ok m ↔
      ∃ v, (Spec.CarrierVerifies P ((o.sub 1).sub 0) cur vk v ∨
          Spec.JwsVerifies P ((o.sub 1).sub 0) cur vk v) ∧
        Message.ofText P.f64 (v.text ((o.sub 1).sub 1)) = some m := by
  rw [receive_eq hcur]
  simp only [Message.verifyStep, hc, Res.bind_ok, if_true, Message.receiveJws, Res.bind_eq_ok, Res.ofOpt_eq_ok,
    Res.pure_eq, Res.ok.injEq]
  constructor
  · rintro ⟨t, ⟨_, h, v, rfl, rfl⟩, hm⟩
    exact ⟨v, verifiedOf_accepts.1 h, hm⟩
  · rintro ⟨v, h, hm⟩
    exact ⟨_, ⟨_, verifiedOf_accepts.2 h, v, rfl, rfl⟩, hm⟩

/-- C29: a signed text that is accepted in the second way, without a key being given. -/
example : ∃ t v, Message.messageType (toy fun _ => none) t = .ok .jws ∧
    Spec.JwsVerifies (toy fun _ => none) ((HOrd.rev.sub 1).sub 0) t none v ∧
    Message.receive (toy fun _ => none) HOrd.rev t none none none = .ok richMessage := by
  have hw := richMessage_wf (toy fun _ => none).f64
  obtain ⟨t, h1, h2⟩ := C24_sign_receive _ .es256 _ _ (toy_signPair (fun _ => none) _ (exampleKey 5))
    { richMessage.setKid (hexEncode (exampleKey 5)) with flatJws := true }
    ⟨hw.jwm, hw.other, hw.to, hw.recipients, hw.canon, hw.nums, hw.depth⟩
    ⟨(by intro k h; cases h), (by intro k h; cases h)⟩ HOrd.id HOrd.rev
  have h3 := h2 none none none (.inr ⟨rfl, rfl⟩)
  have hc : Message.messageType (toy fun _ => none) t = .ok .jws ∧
      Message.ofText (toy fun _ => none).f64 t = none := by
    obtain ⟨-, sig, -, rfl⟩ := sign_ok h1
    exact jwsOf_class (P := toy fun _ => none) _ _ _ _
  obtain ⟨v, hv, -⟩ := (C29_accepted_iff _ HOrd.rev _ _ none none none _
    (decryptStep_jws hc.1 _ _ _) hc.1).1 h3
  refine ⟨_, v, hc.1, ?_, h3⟩
  rcases hv with ⟨c, k, hm, -⟩ | hv
  · rw [hc.2] at hm; cases hm
  · exact hv

/-- C29: a message of signed type without an `alg` is refused, whatever its body and whatever keys are
given. -/
theorem C29_carrier_without_alg (P : Prims) (o : HOrd) (s cur : Str) (sk ek vk : Option Bytes) (c : Message)
    (hcur : Message.decryptStep P (o.sub 0) s sk ek = .ok cur)
    (hc : Message.messageType P cur = .ok .jws) (hm : Message.ofText P.f64 cur = some c)
    (ha : c.jwm.alg = none) : Message.receive P o s sk ek vk = .err .jweParseError := by
  rw [receive_eq hcur]
  simp only [Message.verifyStep, hc, Res.bind_ok, if_true, Message.receiveJws, Message.verifiedOf, hm, ha]
  rfl

/-- C29: such a text, sent by anyone, that `receive` refuses under every key. -/
example (P : Prims) (sk ek vk : Option Bytes) (o : HOrd) :
    Message.receive P o ((richMessage.setTyp .jws).text HOrd.id) sk ek vk = .err .jweParseError := by
  have hw : (richMessage.setTyp .jws).WF P.f64 := by
    have hw := richMessage_wf P.f64
    exact ⟨hw.jwm, hw.other, hw.to, hw.recipients, hw.canon, hw.nums, hw.depth⟩
  have hmt : Message.messageType P ((richMessage.setTyp .jws).text HOrd.id) = .ok .jws := by
    exact messageType_text P HOrd.id hw (by decide)
  exact C29_carrier_without_alg P o _ _ sk ek vk _ (decryptStep_jws hmt _ _ _) hmt (ofText_text _ hw) (by decide)

end Verif
