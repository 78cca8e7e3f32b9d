import Verif.Props.Errors

/-!
# What an error of `receive` means for signed texts

C120, continued.
-/

namespace Verif

open Spec

/-! ## Specification -/

/-- The check of the document `t` under `key` comes to the signature `sg` at position `i`: all before it are well formed
but invalid. -/
def Spec.ComesTo (P : Prims) (o : HOrd) (t : Str) (key : Bytes) (j : Jws) (i : Nat) (sg : Signature) : Prop :=
  Jws.ofText P.f64 t = some j ∧ (Spec.signatures j)[i]? = some sg ∧
    ∀ n s', n < i → (Spec.signatures j)[n]? = some s' → Spec.SigCheck P (Spec.ordAt o n) j.payload key s' false

/-- Neither key nor signature can be read: the algorithm is named and known, the signed header is there, and the
primitive reports an error. -/
def Spec.Unreadable (P : Prims) (o : HOrd) (payload : Str) (key : Bytes) (sg : Signature) : Prop :=
  ∃ a hdr, sg.getAlg = some (Spec.signAlgName a) ∧ sg.protected_ = some hdr ∧
    P.verify a key (utf8 (headerB64 o hdr ++ ['.'] ++ payload)) sg.signature = none

/-! ## The loops -/

theorem signingKey_cases (key : Option Bytes) (kid : Option Str) :
    (∃ k, signingKey key kid = .ok k) ∨ signingKey key kid = .err .jwsParseError := by
  unfold signingKey
  cases key with
  | some k => exact .inl ⟨k, rfl⟩
  | none =>
    cases kid with
    | none => exact .inr rfl
    | some x =>
      cases hh : hexDecode x with
      | none => exact .inr (by simp only [hh]; rfl)
      | some b => exact .inl ⟨b, by simp only [hh]; rfl⟩

theorem signOfStr_cases (s : Str) : (∃ a, SignAlg.ofStr s = .ok a) ∨ SignAlg.ofStr s = .err .jwsParseError := by
  unfold SignAlg.ofStr
  split
  · exact .inl ⟨_, rfl⟩
  · split
    · exact .inl ⟨_, rfl⟩
    · split
      · exact .inl ⟨_, rfl⟩
      · exact .inr rfl

theorem verifyOne_noAlg {P : Prims} {o : HOrd} {p : Str} {key : Bytes} {s : Signature} :
    Message.verifyOne P o p key s = .err .jweParseError ↔ s.getAlg = none := by
  unfold Message.verifyOne
  cases s.getAlg with
  | none => simp [Res.ofOpt]
  | some alg =>
    simp only [Res.ofOpt_some, Res.bind_ok, reduceCtorEq, iff_false]
    rcases signOfStr_cases alg with ⟨a, ha⟩ | ha
    · rw [ha, Res.bind_ok]
      cases s.protected_ with
      | none => simp [Res.ofOpt]
      | some h =>
        rw [Res.ofOpt_some, Res.bind_ok]
        unfold SignAlg.validator
        cases P.verify a key (Message.signingInput (headerB64 o h) p) s.signature <;> simp [Res.ofOpt]
    · rw [ha]
      simp

theorem verifyOne_unreadable {P : Prims} {o : HOrd} {p : Str} {key : Bytes} {s : Signature} :
    Message.verifyOne P o p key s = .err .edDsa ↔ Spec.Unreadable P o p key s := by
  unfold Spec.Unreadable Message.verifyOne
  cases s.getAlg with
  | none => simp [Res.ofOpt]
  | some alg =>
    simp only [Res.ofOpt_some, Res.bind_ok, Option.some.injEq]
    by_cases h : ∃ a, SignAlg.ofStr alg = .ok a
    · obtain ⟨a, ha⟩ := h
      rw [ha, Res.bind_ok]
      rw [signOfStr_iff] at ha
      subst ha
      constructor
      · intro h
        cases hh : s.protected_ with
        | none => rw [hh] at h; simp [Res.ofOpt] at h
        | some hdr =>
          rw [hh, Res.ofOpt_some, Res.bind_ok] at h
          refine ⟨a, hdr, rfl, rfl, ?_⟩
          unfold SignAlg.validator at h
          cases hv : P.verify a key (Message.signingInput (headerB64 o hdr) p) s.signature with
          | none => simpa [Message.signingInput] using hv
          | some b => rw [hv] at h; cases h
      · rintro ⟨a', hdr, he, h2, h3⟩
        obtain rfl : a' = a := by
          cases a <;> cases a' <;> first | rfl | (revert he; decide)
        rw [h2, Res.ofOpt_some, Res.bind_ok]
        unfold SignAlg.validator
        rw [show P.verify a' key (Message.signingInput (headerB64 o hdr) p) s.signature = none by
          simpa [Message.signingInput] using h3]
        rfl
    · constructor
      · intro h'
        exfalso
        rcases signOfStr_cases alg with ha | ha
        · exact h ha
        · rw [ha] at h'; cases h'
      · rintro ⟨a, hdr, rfl, -⟩
        exact absurd ⟨a, signOfStr_iff.2 rfl⟩ h

theorem verifyLoop_err_iff {P : Prims} {p : Str} {key : Bytes} {l : List Signature} {o : HOrd} {e : Err} :
    Message.verifyLoop P p key o l = .err e ↔ ∃ i s, l[i]? = some s ∧
      Message.verifyOne P (Spec.ordAt o i) p key s = .err e ∧
      ∀ n s', n < i → l[n]? = some s' → Spec.SigCheck P (Spec.ordAt o n) p key s' false := by
  induction l generalizing o with
  | nil => simp [Message.verifyLoop]
  | cons x l ih =>
    unfold Message.verifyLoop
    constructor
    · intro h
      cases hb : Message.verifyOne P (o.sub 0) p key x with
      | ok b =>
        rw [hb, Res.bind_ok] at h
        cases b with
        | true => simp at h
        | false =>
          rw [if_neg (by simp), ih] at h
          obtain ⟨i, s, h1, h2, h3⟩ := h
          refine ⟨i + 1, s, h1, h2, ?_⟩
          intro n s' hn hs'
          cases n with
          | zero =>
            obtain rfl := Option.some.inj hs'
            exact verifyOne_iff.1 hb
          | succ n => exact h3 n s' (by omega) hs'
      | err e' =>
        rw [hb] at h
        exact ⟨0, x, rfl, by rw [show Spec.ordAt o 0 = o.sub 0 from rfl, hb]; exact h, by intro n s' hn; omega⟩
      | panic => rw [hb] at h; cases h
    · rintro ⟨i, s, h1, h2, h3⟩
      cases i with
      | zero =>
        obtain rfl := Option.some.inj h1
        rw [show Message.verifyOne P (o.sub 0) p key x = .err e from h2]
        rfl
      | succ i =>
        have h0 : Message.verifyOne P (o.sub 0) p key x = .ok false := verifyOne_iff.2 (h3 0 x (by omega) rfl)
        rw [h0, Res.bind_ok, if_neg (by simp), ih]
        exact ⟨i, s, h1, h2, fun n s' hn hs' => h3 (n + 1) s' (by omega) hs'⟩

theorem verify_err_iff {P : Prims} {o : HOrd} {t : Str} {key : Bytes} {e : Err} (h1 : e ≠ .serde) (h2 : e ≠ .jwsParseError)
    (h3 : e ≠ .base64) : Message.verify P o (utf8 t) key = .err e ↔ ∃ j i sg, Spec.ComesTo P o t key j i sg ∧
      Message.verifyOne P (Spec.ordAt o i) j.payload key sg = .err e := by
  unfold Message.verify Spec.ComesTo
  rw [jws_ofBytes_utf8]
  cases hj : Jws.ofText P.f64 t with
  | none => simp [Res.ofOpt, Ne.symm h1]
  | some j =>
    simp only [Res.ofOpt_some, Res.bind_ok]
    cases hs : Message.signaturesOf j with
    | ok l =>
      have hl : Spec.signatures j = l := by
        obtain ⟨p, s, ss⟩ := j
        cases ss with
        | some l' => exact Res.ok.inj hs
        | none =>
          cases s with
          | some s => exact Res.ok.inj hs
          | none => cases hs
      rw [Res.bind_ok]
      have hiff : (∃ j' i sg, (some j = some j' ∧ (Spec.signatures j')[i]? = some sg ∧
          ∀ n s', n < i → (Spec.signatures j')[n]? = some s' →
            Spec.SigCheck P (Spec.ordAt o n) j'.payload key s' false) ∧
          Message.verifyOne P (Spec.ordAt o i) j'.payload key sg = .err e) ↔
          Message.verifyLoop P j.payload key o l = .err e := by
        rw [verifyLoop_err_iff]
        constructor
        · rintro ⟨j', i, sg, ⟨he, h4, h5⟩, h6⟩
          obtain rfl := Option.some.inj he
          rw [hl] at h4 h5
          exact ⟨i, sg, h4, h6, h5⟩
        · rintro ⟨i, sg, h4, h6, h5⟩
          rw [← hl] at h4 h5
          exact ⟨j, i, sg, ⟨rfl, h4, h5⟩, h6⟩
      rw [hiff]
      cases Message.verifyLoop P j.payload key o l with
      | ok b =>
        rw [Res.bind_ok]
        cases b with
        | false => simp [Ne.symm h2]
        | true =>
          rw [if_pos rfl]
          cases b64Decode j.payload with
          | none => simp [Res.ofOpt, Ne.symm h3]
          | some pt =>
            rw [Res.ofOpt_some, Res.bind_ok]
            cases Message.ofBytes P.f64 pt <;> simp [Res.ofOpt, Ne.symm h1]
      | err e' => simp
      | panic => simp
    | err e' =>
      obtain rfl : e' = .jwsParseError := by
        unfold Message.signaturesOf at hs
        split at hs
        · cases hs
        · split at hs <;> cases hs
          rfl
      constructor
      · intro h; cases h; exact absurd rfl h2
      · rintro ⟨j', i, sg, ⟨he, h4, -⟩, -⟩
        obtain rfl := Option.some.inj he
        exfalso
        obtain ⟨p, s, ss⟩ := j
        cases ss with
        | some l' => cases hs
        | none =>
          cases s with
          | some s => cases hs
          | none => simp [Spec.signatures] at h4
    | panic =>
      unfold Message.signaturesOf at hs
      split at hs
      · cases hs
      · split at hs <;> cases hs

/-! ## C120 -/

/-- C120.  A signed text that is not itself a message is refused as a bad JWS exactly if it holds no signed message; the
only other error is that the message cannot be read once it is written again. -/
theorem C120_bad_signature (P : Prims) (o : HOrd) (s : Str) (sk ek vk : Option Bytes)
    (hk : KindOf P s .jws) (hn : Message.ofText P.f64 s = none) :
    (Message.receive P o s sk ek vk = .err .jwsParseError ↔ ∀ v, ¬Holds P ((o.sub 1).sub 0) s vk v) ∧
    ∀ e, Message.receive P o s sk ek vk = .err e → e ≠ .jwsParseError →
      e = .serde ∧ ∃ v, Holds P ((o.sub 1).sub 0) s vk v ∧ Message.ofText P.f64 (v.text ((o.sub 1).sub 1)) = none := by
  have hmt : Message.messageType P s = .ok .jws := by
    have h := hk
    obtain ⟨es, hs, -⟩ := h
    exact (kind_iff hs).2 hk
  have hr : Message.receive P o s sk ek vk =
      (Message.verifiedOf P ((o.sub 1).sub 0) s vk >>= fun x => Res.ofOpt .jwsParseError x >>= fun m =>
        Res.ofOpt .serde (Message.ofText P.f64 (m.text ((o.sub 1).sub 1)))) := by
    rw [receive_eq (decryptStep_jws hmt _ _ _)]
    unfold Message.verifyStep Message.receiveJws
    rw [hmt, Res.bind_ok, if_pos rfl]
    cases Message.verifiedOf P ((o.sub 1).sub 0) s vk with
    | ok v => cases v <;> rfl
    | err e => rfl
    | panic => rfl
  have hv : (∃ v, Message.verifiedOf P ((o.sub 1).sub 0) s vk = .ok (some v)) ∨
      Message.verifiedOf P ((o.sub 1).sub 0) s vk = .ok none ∨
      Message.verifiedOf P ((o.sub 1).sub 0) s vk = .err .jwsParseError := by
    unfold Message.verifiedOf
    rw [hn]
    simp only
    cases Jws.ofText P.f64 s with
    | none => exact .inr (.inr rfl)
    | some j =>
      simp only
      cases hs : Message.signaturesOf j with
      | ok l =>
        rw [Res.bind_ok]
        generalize (o.sub 1).sub 0 = o'
        clear hs
        induction l generalizing o' with
        | nil => exact .inr (.inl rfl)
        | cons x l ih =>
          unfold Message.verifyEach
          cases x.getAlg with
          | none => exact ih _
          | some a =>
            simp only
            rcases signingKey_cases vk x.getKid with ⟨k, hsk⟩ | hsk
            · rw [hsk, Res.bind_ok]
              cases hver : Message.verify P (o'.sub 0) (utf8 s) k with
              | ok m => exact .inl ⟨m, rfl⟩
              | err e => exact ih _
              | panic => exact absurd hver (verify_ne_panic P _ _ _)
            · rw [hsk]
              exact .inr (.inr rfl)
      | err e =>
        unfold Message.signaturesOf at hs
        split at hs
        · cases hs
        · split at hs <;> cases hs
          exact .inr (.inr rfl)
      | panic =>
        unfold Message.signaturesOf at hs
        split at hs
        · cases hs
        · split at hs <;> cases hs
  have hno : (∀ v, Message.verifiedOf P ((o.sub 1).sub 0) s vk ≠ .ok (some v)) ↔
      ∀ v, ¬Holds P ((o.sub 1).sub 0) s vk v := by
    simp only [ne_eq, verifiedOf_iff]
  rw [hr, ← hno]
  rcases hv with ⟨v, hv⟩ | hv | hv
  · rw [hv, Res.bind_ok, Res.ofOpt_some, Res.bind_ok]
    constructor
    · constructor
      · intro h
        cases hof : Message.ofText P.f64 (v.text ((o.sub 1).sub 1)) with
        | none => rw [hof] at h; cases h
        | some x => rw [hof] at h; cases h
      · intro h; exact absurd rfl (h v)
    · intro e h he
      cases hof : Message.ofText P.f64 (v.text ((o.sub 1).sub 1)) with
      | none => rw [hof] at h; exact ⟨(Res.err.inj h).symm, v, verifiedOf_iff.1 hv, hof⟩
      | some x => rw [hof] at h; cases h
  · rw [hv]
    exact ⟨⟨fun _ v h => by simp at h, fun _ => rfl⟩, fun e h he => absurd (Res.err.inj h).symm he⟩
  · rw [hv]
    exact ⟨⟨fun _ v h => by simp at h, fun _ => rfl⟩, fun e h he => absurd (Res.err.inj h).symm he⟩

/-- C120.  A message that carries a signed document in its body: an error of the JWE is reported exactly if the message
names no algorithm, or if the check comes to a signature that names none; an error of the signature algorithm exactly if
the check comes to a signature that cannot be read with the key. -/
theorem C120_carrier (P : Prims) (o : HOrd) (s : Str) (sk ek vk : Option Bytes) (c : Message)
    (hk : KindOf P s .jws) (hc : Message.ofText P.f64 s = some c) :
    (Message.receive P o s sk ek vk = .err .jweParseError ↔ c.jwm.alg = none ∨ ∃ k j i sg, CheckKey vk c.jwm.kid k ∧
      ComesTo P ((o.sub 1).sub 0) (printJson c.body) k j i sg ∧ sg.getAlg = none) ∧
    (Message.receive P o s sk ek vk = .err .edDsa ↔ c.jwm.alg ≠ none ∧ ∃ k j i sg, CheckKey vk c.jwm.kid k ∧
      ComesTo P ((o.sub 1).sub 0) (printJson c.body) k j i sg ∧
      Unreadable P (Spec.ordAt ((o.sub 1).sub 0) i) j.payload k sg) := by
  have hmt : Message.messageType P s = .ok .jws := by
    have h := hk
    obtain ⟨es, hs, -⟩ := h
    exact (kind_iff hs).2 hk
  have hr : Message.receive P o s sk ek vk = if c.jwm.alg.isNone then .err .jweParseError else
      (signingKey vk c.jwm.kid >>= fun k => Message.verify P ((o.sub 1).sub 0) (utf8 (printJson c.body)) k >>= fun m =>
        Res.ofOpt .serde (Message.ofText P.f64 (m.text ((o.sub 1).sub 1)))) := by
    rw [receive_eq (decryptStep_jws hmt _ _ _)]
    unfold Message.verifyStep Message.receiveJws Message.verifiedOf
    rw [hmt, Res.bind_ok, if_pos rfl, hc]
    simp only
    split
    · rfl
    · show ((signingKey vk c.jwm.kid >>= fun k => _) >>= _) >>= _ = _
      cases signingKey vk c.jwm.kid with
      | ok k =>
        simp only [Res.bind_ok]
        cases Message.verify P ((o.sub 1).sub 0) (utf8 (printJson c.body)) k <;> rfl
      | err e => rfl
      | panic => rfl
  have key : ∀ e, e ≠ .serde → e ≠ .jwsParseError → e ≠ .base64 →
      ((signingKey vk c.jwm.kid >>= fun k => Message.verify P ((o.sub 1).sub 0) (utf8 (printJson c.body)) k >>= fun m =>
        Res.ofOpt .serde (Message.ofText P.f64 (m.text ((o.sub 1).sub 1)))) = .err e ↔
      ∃ k j i sg, CheckKey vk c.jwm.kid k ∧ ComesTo P ((o.sub 1).sub 0) (printJson c.body) k j i sg ∧
        Message.verifyOne P (Spec.ordAt ((o.sub 1).sub 0) i) j.payload k sg = .err e) := by
    intro e h1 h2 h3
    have hck : ∀ k, CheckKey vk c.jwm.kid k ↔ signingKey vk c.jwm.kid = .ok k := fun k => signingKey_ok.symm
    simp only [hck]
    cases hsk : signingKey vk c.jwm.kid with
    | ok k =>
      rw [Res.bind_ok]
      have := verify_err_iff (P := P) (o := (o.sub 1).sub 0) (t := printJson c.body) (key := k) h1 h2 h3
      cases hver : Message.verify P ((o.sub 1).sub 0) (utf8 (printJson c.body)) k with
      | ok m =>
        rw [hver] at this
        rw [Res.bind_ok]
        constructor
        · intro h
          cases hof : Message.ofText P.f64 (m.text ((o.sub 1).sub 1)) with
          | none => rw [hof] at h; exact absurd (Res.err.inj h).symm h1
          | some x => rw [hof] at h; cases h
        · rintro ⟨k', j, i, sg, hk', h⟩
          obtain rfl := Res.ok.inj hk'
          cases this.2 ⟨j, i, sg, h⟩
      | err e' =>
        rw [hver] at this
        constructor
        · intro h
          obtain ⟨j, i, sg, h⟩ := this.1 h
          exact ⟨k, j, i, sg, rfl, h⟩
        · rintro ⟨k', j, i, sg, hk', h⟩
          obtain rfl := Res.ok.inj hk'
          exact this.2 ⟨j, i, sg, h⟩
      | panic => exact absurd hver (verify_ne_panic P _ _ _)
    | err e' =>
      constructor
      · intro h
        obtain rfl := Res.err.inj h
        rcases signingKey_cases vk c.jwm.kid with ⟨k, hk⟩ | hk
        · rw [hk] at hsk; cases hsk
        · rw [hk] at hsk; exact absurd (Res.err.inj hsk).symm h2
      · rintro ⟨k', j, i, sg, hk', -⟩
        cases hk'
    | panic =>
      constructor
      · intro h; cases h
      · rintro ⟨k', j, i, sg, hk', -⟩
        cases hk'
  rw [hr]
  by_cases ha : c.jwm.alg = none
  · simp [ha]
  · have : c.jwm.alg.isNone = false := by
      cases h : c.jwm.alg with
      | none => exact absurd h ha
      | some _ => rfl
    simp only [this, Bool.false_eq_true, if_false, key .jweParseError (by simp) (by simp) (by simp),
      key .edDsa (by simp) (by simp) (by simp), verifyOne_noAlg, verifyOne_unreadable, ha, false_or, ne_eq,
      not_false_eq_true, true_and, and_self]

/-- A message, with the algorithm in its header or not, whose body is a signed document with two signatures, of which the
second names no algorithm. -/
def Spec.signedBody (alg : Str) : Str :=
  c!"{\"typ\":\"application/didcomm-signed+json\",\"id\":\"1\",\"type\":\"t\",\"to\":[\"a\"],\"kid\":\"00\"" ++ alg ++
    c!",\"body\":{\"payload\":\"\",\"signatures\":[{\"protected\":\"eyJ0eXAiOiJhcHBsaWNhdGlvbi9kaWRjb21tLXNpZ25lZCtqc29uIiwiYWxnIjoiRWREU0EifQ\",\"signature\":\"AA\"},{\"signature\":\"AA\"}]}}"

/-- C120: a message without algorithm, one with a signature without algorithm, one with a key or signature that cannot be
read, and a document with an unknown algorithm. -/
example :
    exampleError (Spec.signedBody []) none none = some .jweParseError ∧
    exampleError (Spec.signedBody c!",\"alg\":\"x\"") none none = some .jweParseError ∧
    (match Message.receive { (toy fun _ => none) with verify := fun _ _ _ _ => none } HOrd.id
      (Spec.signedBody c!",\"alg\":\"x\"") none none none with | .err e => some e | _ => none) = some .edDsa ∧
    exampleError c!"{\"payload\":\"\",\"signatures\":[{\"header\":{\"typ\":\"application/didcomm-signed+json\",\"alg\":\"x\"},\"signature\":\"\"}]}"
      none none = some .jwsParseError := by
  decide +kernel

end Verif
