import Verif.Lemma.Seal

/-! # Lemmas about signing and verifying -/

namespace Verif

open Spec

/-- The protected header of a signed message. -/
def Spec.signedHeader (m : Message) : JwmHeader := { m.jwm with typ := .jws }

/-- The message that is put into a JWS: without JOSE header. -/
def Spec.unsigned (m : Message) : Message := { m with jwm := JwmHeader.dflt }

/-- The payload text of a JWS. -/
def Spec.payloadText (o : HOrd) (m : Message) : Str := b64Encode (utf8 ((Spec.unsigned m).text o))

/-- One signature of a signed message. -/
def Spec.signatureOf (m : Message) (sig : Bytes) : Signature :=
  { protected_ := some (Spec.signedHeader m), header := none, signature := sig }

/-- The envelope of a signed message: one signature at the top level, or one per recipient. -/
def Spec.jwsOf (m : Message) (payload : Str) (sig : Bytes) : Jws :=
  if m.flatJws then { payload, signature := some (Spec.signatureOf m sig), signatures := none }
  else { payload, signature := none,
         signatures := some (m.didcomm.to.map fun _ => Spec.signatureOf m sig) }

theorem sign_ok {o : HOrd} {m : Message} {signer : Bytes → Bytes → Res Bytes} {key : Bytes} {t : Str}
    (h : m.sign o signer key = .ok t) : m.jwm.alg ≠ none ∧
      ∃ sig, signer key (Message.signingInput (headerB64 (o.sub 0) (Spec.signedHeader m))
        (Spec.payloadText (o.sub 1) m)) = .ok sig ∧
        t = (Spec.jwsOf m (Spec.payloadText (o.sub 1) m) sig).text (o.sub 2) := by
  simp only [Message.sign] at h
  split at h
  · cases h
  · rename_i ha
    simp only [Res.bind_eq_ok, Res.pure_eq, Res.ok.injEq] at h
    obtain ⟨sig, hs, rfl⟩ := h
    refine ⟨by simpa using ha, sig, hs, ?_⟩
    unfold Spec.jwsOf
    by_cases hf : m.flatJws = true
    · simp [hf, Jws.newFlat, Spec.signatureOf, Spec.signedHeader, Spec.payloadText, Spec.unsigned]
    · simp [hf, Jws.new, Spec.signatureOf, Spec.signedHeader, Spec.payloadText, Spec.unsigned]

theorem sign_of {o : HOrd} {m : Message} {signer : Bytes → Bytes → Res Bytes} {key sig : Bytes}
    (ha : m.jwm.alg ≠ none)
    (hs : signer key (Message.signingInput (headerB64 (o.sub 0) (Spec.signedHeader m))
        (Spec.payloadText (o.sub 1) m)) = .ok sig) :
    m.sign o signer key = .ok ((Spec.jwsOf m (Spec.payloadText (o.sub 1) m) sig).text (o.sub 2)) := by
  have hs' : signer key (Message.signingInput (headerB64 (o.sub 0) { m.jwm with typ := .jws })
      (b64Encode (utf8 ({ m with jwm := JwmHeader.dflt }.text (o.sub 1))))) = .ok sig := hs
  simp only [Message.sign]
  rw [if_neg (by simpa using ha), hs', Res.bind_ok]
  unfold Spec.jwsOf
  by_cases hf : m.flatJws = true
  · simp [hf, Jws.newFlat, Spec.signatureOf, Spec.signedHeader, Spec.payloadText, Spec.unsigned]
  · simp [hf, Jws.new, Spec.signatureOf, Spec.signedHeader, Spec.payloadText, Spec.unsigned]

theorem signatureOf_wf {m : Message} {sig : Bytes} (h : m.jwm.WF) : (Spec.signatureOf m sig).WF where
  prot := by intro x hx; rw [← Option.some.inj hx]; exact h
  header := by intro x hx; cases hx

theorem jwsOf_wf {m : Message} {p : Str} {sig : Bytes} (h : m.jwm.WF) : (Spec.jwsOf m p sig).WF := by
  unfold Spec.jwsOf
  split
  · refine ⟨?_, (by intro l hl; cases hl)⟩
    intro s hs
    rw [← Option.some.inj hs]
    exact signatureOf_wf h
  · refine ⟨(by intro s hs; cases hs), ?_⟩
    intro l hl s hs
    rw [← Option.some.inj hl] at hs
    obtain ⟨_, -, rfl⟩ := List.mem_map.1 hs
    exact signatureOf_wf h

theorem parse_jws (o : HOrd) (j : Jws) : parseJson (j.text o) = some (encJws o j) :=
  parseJson_print (nice_jws (F := fun t => some t) o j).2.1

theorem ofText_jws {F : Str → Option Str} (o : HOrd) (j : Jws) : Jws.ofText F (j.text o) = decJws F (encJws o j) :=
  jws_ofText_print (nice_jws (F := fun t => some t) o j).2.1

theorem ofBytes_jws {F : Str → Option Str} (o : HOrd) (j : Jws) :
    Jws.ofBytes F (utf8 (j.text o)) = decJws F (encJws o j) :=
  jws_ofBytes_print (nice_jws (F := fun t => some t) o j).2.1

/-- The signatures found in the text of a signed message. -/
theorem jwsOf_signatures {F : Str → Option Str} {m : Message} {p : Str} {sig : Bytes} (o : HOrd)
    (h : m.jwm.WF) : ∃ j, decJws F (encJws o (Spec.jwsOf m p sig)) = some j ∧ j.payload = p ∧
      Message.signaturesOf j = .ok (if m.flatJws then [Spec.signatureOf m sig]
        else m.didcomm.to.map fun _ => Spec.signatureOf m sig) := by
  refine ⟨_, decJws_enc o (jwsOf_wf h), ?_, ?_⟩
  · unfold Spec.jwsOf; split <;> rfl
  · unfold Spec.jwsOf Message.signaturesOf
    by_cases hf : m.flatJws = true <;> simp [hf]

theorem unsigned_wf {F : Str → Option Str} {m : Message} (h : m.WF F) : (Spec.unsigned m).WF F :=
  ⟨⟨(by intro k hk; cases hk), (by intro k hk; cases hk)⟩, h.other, h.to, h.recipients, h.canon, h.nums,
    h.depth⟩

/-- The payload of a JWS decodes to the message without JOSE header. -/
theorem payload_decodes {F : Str → Option Str} {m : Message} (o : HOrd) (h : m.WF F) :
    ∃ b, b64Decode (Spec.payloadText o m) = some b ∧
      Message.ofBytes F b = some { Spec.unsigned m with flatJwe := false, flatJws := false } :=
  ⟨_, b64Decode_encode _, by rw [ofBytes_utf8, ofText_text o (unsigned_wf h)]⟩

theorem signName {a : SignAlg} {h : JwmHeader} : (h.asSigned a).alg ≠ none ∧
    ∃ s, (h.asSigned a).alg = some s ∧ SignAlg.ofStr s = .ok a := by
  cases a
  · exact ⟨by simp [JwmHeader.asSigned], _, rfl, by decide⟩
  · exact ⟨by simp [JwmHeader.asSigned], _, rfl, by decide⟩
  · exact ⟨by simp [JwmHeader.asSigned], _, rfl, by decide⟩

/-- One signature check, with the header spelled out. -/
theorem verifyOne_signatureOf {P : Prims} {o : HOrd} {m : Message} {sig key : Bytes} {p alg : Str}
    {a : SignAlg} (ha : m.jwm.alg = some alg) (hofs : SignAlg.ofStr alg = .ok a) :
    Message.verifyOne P o p key (Spec.signatureOf m sig) =
      a.validator P key (Message.signingInput (headerB64 o (Spec.signedHeader m)) p) sig := by
  have h1 : (Spec.signatureOf m sig).getAlg = some alg := by
    simp [Signature.getAlg, Signature.getter, fallback, Spec.signatureOf, Spec.signedHeader, ha]
  unfold Message.verifyOne
  rw [h1, Res.ofOpt_some, Res.bind_ok, hofs, Res.bind_ok]
  rfl

/-- A JWS whose first signature is valid verifies. -/
theorem verify_first {P : Prims} {o : HOrd} {b key : Bytes} {j : Jws} {s : Signature}
    {l : List Signature} (hj : Jws.ofBytes P.f64 b = some j)
    (hs : Message.signaturesOf j = .ok (s :: l))
    (hv : Message.verifyOne P (o.sub 0) j.payload key s = .ok true) {pt : Bytes} {m : Message}
    (hp : b64Decode j.payload = some pt) (hm : Message.ofBytes P.f64 pt = some m) :
    Message.verify P o b key = .ok m := by
  unfold Message.verify
  rw [hj, Res.ofOpt_some, Res.bind_ok, hs, Res.bind_ok]
  unfold Message.verifyLoop
  rw [hv, Res.bind_ok, if_pos rfl, Res.bind_ok, if_pos rfl, hp, Res.ofOpt_some, Res.bind_ok, hm]
  rfl

/-- `verify` of a JWS made by `sign` with any signer whose signatures are valid. -/
theorem verify_signed {P : Prims} {a : SignAlg} {signer : Bytes → Bytes → Res Bytes} {sk pk : Bytes}
    (hv : ∀ {b s}, signer sk b = .ok s → P.verify a pk b s = some true) {m : Message}
    (hm : m.WF P.f64) (hf : HeaderFixed m.jwm)
    {alg : Str} (ha : m.jwm.alg = some alg) (hofs : SignAlg.ofStr alg = .ok a) {o : HOrd} {t : Str}
    (hs : m.sign o signer sk = .ok t) (o' : HOrd) :
    Message.verify P o' (utf8 t) pk = .ok { Spec.unsigned m with flatJwe := false, flatJws := false } := by
  obtain ⟨-, sig, hsig, rfl⟩ := sign_ok hs
  obtain ⟨j, hj, hp, hsigs⟩ := jwsOf_signatures (F := P.f64) (m := m)
    (p := Spec.payloadText (o.sub 1) m) (sig := sig) (o.sub 2) hm.jwm
  obtain ⟨b, hb, hof⟩ := payload_decodes (o.sub 1) hm
  have hl : ∃ l, Message.signaturesOf j = .ok (Spec.signatureOf m sig :: l) := by
    rw [hsigs]
    split
    · exact ⟨[], rfl⟩
    · cases hto : m.didcomm.to with
      | nil => exact absurd hto hm.to
      | cons x l => exact ⟨_, rfl⟩
  obtain ⟨l, hl⟩ := hl
  have hfix : HeaderFixed (Spec.signedHeader m) := hf
  refine verify_first (by rw [ofBytes_jws]; exact hj) hl ?_ (by rw [hp]; exact hb) hof
  rw [verifyOne_signatureOf ha hofs, hp, headerB64_fixed hfix (o'.sub 0) (o.sub 0)]
  unfold SignAlg.validator
  rw [hv hsig]
  rfl

/-- `verify` of a JWS made by `sign`. -/
theorem verify_sign {P : Prims} {a : SignAlg} {sk pk : Bytes} (hpair : SignPair P a sk pk) {m : Message}
    (hm : m.WF P.f64) (hf : HeaderFixed m.jwm)
    {alg : Str} (ha : m.jwm.alg = some alg) (hofs : SignAlg.ofStr alg = .ok a) {o : HOrd} {t : Str}
    (hs : m.sign o (a.signer P) sk = .ok t) (o' : HOrd) :
    Message.verify P o' (utf8 t) pk = .ok { Spec.unsigned m with flatJwe := false, flatJws := false } := by
  refine verify_signed (fun {b s} h => ?_) hm hf ha hofs hs o'
  unfold SignAlg.signer at h
  rw [Res.ofOpt_eq_ok] at h
  obtain ⟨s', hs1, hs2⟩ := hpair b
  rw [h] at hs1
  obtain rfl := Option.some.inj hs1
  exact hs2

/-- The tree of a JWS made by `sign` is in canonical form. -/
theorem canon_jwsOf {F : Str → Option Str} (o : HOrd) (m : Message) (p : Str) (sig : Bytes) :
    Canon F (encJws o (Spec.jwsOf m p sig)) := by
  have hsig : ∀ o, Canon F (encSignature o (Spec.signatureOf m sig)) := by
    intro o
    simp only [encSignature, signatureEntries, Spec.signatureOf, optE, List.nil_append,
      List.singleton_append, Canon, CanonM, SortedKeys, List.mem_singleton, forall_eq, and_true]
    refine ⟨by decide, ?_⟩
    intro q hq; cases hq
  unfold Spec.jwsOf
  split
  · simp only [encJws, flatSignature, signatureEntries, Spec.signatureOf, optE, List.nil_append,
      List.singleton_append, Canon, CanonM, and_true, SortedKeys, List.append_nil]
    refine ⟨?_, ?_, ?_⟩
    · intro q hq
      simp only [List.mem_cons, List.not_mem_nil, or_false] at hq
      rcases hq with rfl | rfl <;> rfl
    · intro q hq
      simp only [List.mem_singleton] at hq
      subst hq; rfl
    · intro q hq; cases hq
  · simp only [encJws, flatSignature, optE, List.nil_append, Canon, CanonM, SortedKeys, and_true,
      true_and]
    refine ⟨⟨?_, ?_⟩, ?_⟩
    · intro q hq
      simp only [List.mem_singleton] at hq
      subst hq; rfl
    · intro q hq; cases hq
    · generalize o.sub 1 = o1
      rw [canonL_iff]
      intro j hj
      obtain ⟨o2, x, hx, rfl⟩ : ∃ o2 x, x ∈ (m.didcomm.to.map fun _ => Spec.signatureOf m sig) ∧
          j = encSignature o2 x := by
        revert hj
        generalize m.didcomm.to.map (fun _ => Spec.signatureOf m sig) = l
        intro hj
        induction l generalizing o1 with
        | nil => cases hj
        | cons x l ih =>
          simp only [encList, List.mem_cons] at hj
          rcases hj with rfl | hj
          · exact ⟨_, x, by simp, rfl⟩
          · obtain ⟨o2, y, hy, rfl⟩ := ih _ hj
            exact ⟨o2, y, by simp [hy], rfl⟩
      obtain ⟨_, -, rfl⟩ := List.mem_map.1 hx
      exact hsig o2

theorem depth_jws (o : HOrd) (j : Jws) : (encJws o j).depth ≤ 6 := (nice_jws (F := fun t => some t) o j).1

/-- A signed message, read as a JSON value, is its own tree. -/
theorem valueOfText_jwsOf {F : Str → Option Str} (o : HOrd) (m : Message) (p : Str) (sig : Bytes) :
    Message.valueOfText F ((Spec.jwsOf m p sig).text o) = some (encJws o (Spec.jwsOf m p sig)) := by
  unfold Message.valueOfText
  rw [parse_jws, Option.bind_some]
  unfold toValue
  rw [if_pos (by have := depth_jws o (Spec.jwsOf m p sig); omega), normJ_canon (canon_jwsOf o m p sig)]

end Verif
