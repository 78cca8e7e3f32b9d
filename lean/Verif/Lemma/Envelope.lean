import Verif.Lemma.Message
import Verif.Lemma.Borrow

/-! # Round trips of JWE and JWS envelopes -/

namespace Verif

theorem nums_jwm (o : HOrd) (h : JwmHeader) : Spec.NumsOk (encJwm o h) :=
  (nice_jwm (F := fun _ => none) o h).2.1

theorem decHeaderBytes_enc (o : HOrd) {h : JwmHeader} (hw : h.WF) :
    decHeaderBytes (utf8 (printJson (encJwm o h))) = some (some h) := by
  unfold decHeaderBytes
  rw [parseBytes_print (nums_jwm o h)]
  show decOpt decJwm (encJwm o h) = _
  have := decJwm_enc o hw
  unfold decOpt
  split
  · next he => simp [encJwm] at he
  · rw [this]; rfl

theorem decHeaderB64_enc (o : HOrd) {h : JwmHeader} (hw : h.WF) :
    decHeaderB64 (.str (headerB64 o h)) = some (some h) := by
  simp only [decHeaderB64, headerB64, b64Decode_encode, Option.bind_some]
  exact decHeaderBytes_enc o hw

/-- Header present implies well formed. -/
def HeaderWF (x : Option JwmHeader) : Prop := ∀ h, x = some h → h.WF

theorem protectedField {o : HOrd} {es : List (Str × Json)} (x : Option JwmHeader)
    (h : fieldVals c!"protected" es = (x.map fun h => Json.str (headerB64 o h)).toList)
    (hw : HeaderWF x) : dfltField none decHeaderB64 c!"protected" es = some x := by
  unfold dfltField
  rw [h]
  cases x with
  | none => rfl
  | some a => exact decHeaderB64_enc o (hw a rfl)

theorem headerField {o : HOrd} {k : Str} {es : List (Str × Json)} (x : Option JwmHeader)
    (h : fieldVals k es = (x.map (encJwm o)).toList)
    (hw : HeaderWF x) : optField decJwm k es = some x :=
  optField_of x h (fun a ha => ⟨decJwm_enc o (hw a ha), by simp [encJwm]⟩)

/-! ## JWE -/

/-- Envelopes that can be read back. -/
structure Jwe.WF (j : Jwe) : Prop where
  prot : HeaderWF j.protected_
  unprot : HeaderWF j.unprotected
  recipient : ∀ r, j.recipient = some r → r.header.WF
  recipients : RecipientsWF j.recipients

theorem fieldVals_flatRecipient {k : Str} (o : HOrd) (x : Option Recipient)
    (h1 : k ≠ c!"header") (h2 : k ≠ c!"encrypted_key") : fieldVals k (flatRecipient o x) = [] := by
  cases x with
  | none => rfl
  | some r =>
    simp only [flatRecipient, recipientEntries]
    rw [fieldVals_cons_ne (Ne.symm h1), fieldVals_cons_ne (Ne.symm h2)]
    rfl

theorem decJwe_enc {F : Str → Option Str} (o : HOrd) {j : Jwe} (h : j.WF) :
    decJwe F (encJwe o j) = some j := by
  have hfr : ∀ k ∈ jweKeys, fieldVals k (flatRecipient (o.sub 2) j.recipient) = [] := by
    intro k hk
    apply fieldVals_flatRecipient
    · rintro rfl; revert hk; decide
    · rintro rfl; revert hk; decide
  simp only [jweKeys, List.forall_mem_cons] at hfr
  obtain ⟨f1, f2, f3, f4, f5, f6, -⟩ := hfr
  have hnice := (nice_jwe (F := F) o j).elim_obj
  simp only [decJwe, encJwe, mapEntries]
  rw [Option.bind_eq_bind, Option.bind_some]
  rw [protectedField (o := o.sub 0) j.protected_ (by look; simp [f1]) h.prot,
    headerField (o := o.sub 1) j.unprotected (by look; simp [f2]) h.unprot,
    recipientsField (o := o.sub 3) j.recipients (by look; simp [f3]) h.recipients,
    reqField_of (v := .str j.ciphertext) (a := j.ciphertext) (by look; simp [f4]) rfl,
    reqField_of (v := .str j.iv) (a := j.iv) (by look; simp [f5]) rfl,
    strField j.tag (by look; simp [f6]),
    buffered_filter hnice (by omega)]
  simp only [List.filter_append, filter_optE (ks := jweKeys) (k := c!"protected") (by decide),
    filter_optE (ks := jweKeys) (k := c!"unprotected") (by decide),
    filter_optE (ks := jweKeys) (k := c!"recipients") (by decide),
    filter_optE (ks := jweKeys) (k := c!"tag") (by decide),
    filter_cons_in (ks := jweKeys) (k := c!"ciphertext") (by decide),
    filter_cons_in (ks := jweKeys) (k := c!"iv") (by decide), List.nil_append, List.append_nil]
  have hrec : decRecipientE ((flatRecipient (o.sub 2) j.recipient).filter
      fun p => !jweKeys.contains p.1) = j.recipient := by
    cases hr : j.recipient with
    | none => rfl
    | some r =>
      rw [filter_keys_self]
      · exact decRecipientE_enc _ (h.recipient r hr)
      · intro p hp
        simp only [flatRecipient, recipientEntries, List.mem_cons, List.not_mem_nil, or_false] at hp
        rcases hp with rfl | rfl
        · show c!"header" ∉ jweKeys; decide
        · show c!"encrypted_key" ∉ jweKeys; decide
  rw [hrec]
  simp [guard]

theorem jwe_ofText_text {F : Str → Option Str} (o : HOrd) {j : Jwe} (h : j.WF) :
    Jwe.ofText F (j.text o) = some j := by
  unfold Jwe.ofText Jwe.text
  rw [parseJson_print (nice_jwe (F := F) o j).2.1]
  exact decJwe_enc o h

/-! ## JWS -/

/-- Signatures that can be read back. -/
structure Signature.WF (s : Signature) : Prop where
  prot : HeaderWF s.protected_
  header : HeaderWF s.header

theorem decSignatureE_enc (o : HOrd) {s : Signature} (h : s.WF) :
    decSignatureE (signatureEntries o s) = some s := by
  simp only [decSignatureE, signatureEntries]
  rw [protectedField (o := o.sub 0) s.protected_ (by look) h.prot,
    headerField (o := o.sub 1) s.header (by look) h.header]
  have : dfltField [] decBufferB64 c!"signature" (signatureEntries o s) = some s.signature := by
    unfold dfltField signatureEntries
    rw [show fieldVals c!"signature" (optE c!"protected" (fun h => Json.str (headerB64 (o.sub 0) h)) s.protected_ ++
    (optE c!"header" (encJwm (o.sub 1)) s.header ++
      [(c!"signature", .str (b64Encode s.signature))])) = [.str (b64Encode s.signature)] from by look]
    exact b64Decode_encode _
  unfold signatureEntries at this
  rw [this]
  rfl

theorem decSignature_enc (o : HOrd) {s : Signature} (h : s.WF) :
    decSignature (encSignature o s) = some s := by
  simp only [decSignature, encSignature, structEntries]
  rw [Option.bind_eq_bind, Option.bind_some, decSignatureE_enc o h]

/-- JWS that can be read back. -/
structure Jws.WF (j : Jws) : Prop where
  signature : ∀ s, j.signature = some s → s.WF
  signatures : ∀ l, j.signatures = some l → ∀ s ∈ l, s.WF

theorem keys_signature {o : HOrd} {s : Signature} {p : Str × Json} (hp : p ∈ signatureEntries o s) :
    p.1 ∈ [c!"protected", c!"header", c!"signature"] := by
  simp only [signatureEntries, List.mem_append, List.mem_singleton] at hp
  rcases hp with h | h | rfl
  · rw [keys_optE h]; decide
  · rw [keys_optE h]; decide
  · show c!"signature" ∈ [c!"protected", c!"header", c!"signature"]; decide

/-- A JWS without top-level signature is read back with an empty one. -/
theorem decJws_enc {F : Str → Option Str} (o : HOrd) {j : Jws} (h : j.WF) :
    decJws F (encJws o j) = some { j with signature := some (j.signature.getD ⟨none, none, []⟩) } := by
  have hfr : ∀ k ∈ jwsKeys, fieldVals k (flatSignature (o.sub 0) j.signature) = [] := by
    intro k hk
    apply fieldVals_none
    intro p hp he
    cases hs : j.signature with
    | none => rw [hs] at hp; cases hp
    | some s =>
      rw [hs] at hp
      have := keys_signature hp
      rw [he] at this
      clear he
      revert k
      decide
  simp only [jwsKeys, List.forall_mem_cons] at hfr
  obtain ⟨f1, f2, -⟩ := hfr
  have hnice := (nice_jws (F := F) o j).elim_obj
  simp only [decJws, encJws, mapEntries]
  rw [Option.bind_eq_bind, Option.bind_some]
  rw [reqField_of (v := .str j.payload) (a := j.payload) (by look; simp [f1]) rfl,
    optField_of (e := fun l => Json.arr (encList encSignature (o.sub 1) l)) j.signatures
      (by look; simp [f2]) (fun l hl => ⟨by
        simp only [decVec]
        exact decAll_encList _ l (fun o a ha => decSignature_enc o (h.signatures l hl a ha)),
        by simp⟩),
    buffered_filter hnice (by omega)]
  simp only [List.filter_append, filter_optE (ks := jwsKeys) (k := c!"signatures") (by decide),
    filter_cons_in (ks := jwsKeys) (k := c!"payload") (by decide), List.append_nil]
  have hrec : decSignatureE ((flatSignature (o.sub 0) j.signature).filter
      fun p => !jwsKeys.contains p.1) = some (j.signature.getD ⟨none, none, []⟩) := by
    cases hr : j.signature with
    | none => rfl
    | some r =>
      rw [filter_keys_self]
      · exact decSignatureE_enc _ (h.signature r hr)
      · intro p hp hk
        have := keys_signature hp
        generalize p.1 = k at this hk
        revert k
        decide
  rw [hrec]
  simp [guard]

theorem jws_ofText_text {F : Str → Option Str} (o : HOrd) {j : Jws} (h : j.WF) :
    Jws.ofText F (j.text o) =
      some { j with signature := some (j.signature.getD ⟨none, none, []⟩) } := by
  unfold Jws.text
  rw [jws_ofText_print (nice_jws (F := F) o j).2.1]
  exact decJws_enc o h

/-! ## Mediated -/

theorem decMediated_enc (m : Mediated) : decMediated (encMediated m) = some m := by
  simp only [decMediated, encMediated, structEntries]
  rw [Option.bind_eq_bind, Option.bind_some]
  rw [reqField_of (v := .str m.next) (a := m.next) (by look) rfl,
    reqField_of (v := .arr (m.payload.map encU8)) (a := m.payload) (by look)
      (by simp only [decVec]; exact decAll_map _ (fun _ _ => decU8_enc _))]
  rfl

end Verif
