import Verif.Props.Same
import Verif.Props.Seal

/-!
# Typed bodies and plugged in signers

C87 (bodies read as a type of the application), C90 (signatures made by plugged in code).
-/

namespace Verif

open Spec

/-! ## C87 -/

/-- C87.  Reading the body that was set as a type of the application gives what the type makes of the text:
for every reader that does not depend on the order of members and the way floats are written, and every
document with distinct member names whose floats are printed in a form that reads back as itself. -/
theorem C87_typed_body (P : Prims) (hF : FloatLaw P.f64) {α : Type} (dec : Json → Option α)
    (hd : ∀ j j', Same P.f64 j j' → dec j = dec j') (m m' : Message) (text : Str) (j : Json)
    (h : Document j text) (hj : Distinct j) (hb : m.setBody P text = .ok m') (hst : NumsStable P.f64 m'.body) :
    m'.shapeWith dec = Res.ofOpt .serde (dec j) := by
  obtain ⟨j', v, h1, -, h2, rfl⟩ := (C04_set_body P m m' text).1 hb
  obtain rfl : j = j' := Option.some.inj ((parseJson_iff.2 h).symm.trans (parseJson_iff.2 h1))
  have hv := normJ_iff.2 h2
  have hn : NumsOk v := normJ_numsOk (fun t u h => (hF t u h).1) hv (parseJson_numsOk (parseJson_iff.2 h))
  simp only [Message.shapeWith, Message.getBody, Res.bind_ok]
  rw [parseJson_print hn, Option.bind_some, hd j v (same_normJ hF hj hv hst)]

/-- C87.  The same for a message that was sealed and received. -/
theorem C87_typed_body_received (P : Prims) (hP : Laws P) (hF : FloatLaw P.f64) {α : Type} (dec : Json → Option α)
    (hd : ∀ j j', Same P.f64 j j' → dec j = dec j') (m m' : Message) (text : Str) (j : Json)
    (h : Document j text) (hj : Distinct j) (hb : m.setBody P text = .ok m')
    (r : Message.SealRand) (o : HOrd) (ssk rsk : Bytes) (rest : List (Option Bytes)) (t frm : Str)
    (vk : Option Bytes) (hm : m'.WF P.f64) (hc : Avoids m'.didcomm.other classKeys) (hf : HeaderFixed m'.jwm)
    (ht : m'.jwm.typ ≠ .jws) (hfrom : m'.didcomm.from = some frm) (hrk : rsk.length = 32)
    (hseal : m'.sealJwe P r ssk (some (some (P.x25519Pub rsk) :: rest)) = .ok t) :
    ∃ q, Message.receive P o t (some rsk) (some (P.x25519Pub ssk)) vk = .ok q ∧
      q.shapeWith dec = Res.ofOpt .serde (dec j) := by
  obtain ⟨rs, hr⟩ := C16_seal_receive P hP r o m' ssk rsk rest t frm vk hm hc hf ht hfrom hrk hseal
  exact ⟨_, hr, C87_typed_body P hF dec hd m m' text j h hj hb (canon_stable hm.canon)⟩

/-- The type of the example in the documentation. -/
def decDesired (j : Json) : Option (UInt64 × Str) := do
  let es ← structEntries [c!"num_field", c!"string_field"] 2 j
  let n ← reqField decU64 c!"num_field" es
  let s ← reqField decStr c!"string_field" es
  pure (n, s)

/-- C87: the type of the documentation's example. -/
example (F : Str → Option Str) (j j' : Json) (h : Same F j j') : decDesired j = decDesired j' := by
  refine structEntries_same (fs := [c!"num_field", c!"string_field"]) (f := fun es => (reqField decU64 c!"num_field" es).bind fun n =>
    (reqField decStr c!"string_field" es).bind fun s => some (n, s)) 2 (by decide) (fun es es' h => ?_) j j' h
  simp only [reqField_same stable_decStr h, reqField_same stable_decU64 h]

/-- C87: its body, written in another order. -/
example : ∃ j m', Document j c!"{\"string_field\": \"foobar\", \"num_field\": 123}" ∧ Distinct j ∧
    (Message.new c!"u").setBody (toy fun _ => none) c!"{\"string_field\": \"foobar\", \"num_field\": 123}" = .ok m' ∧
    m'.shapeWith decDesired = .ok (123, c!"foobar") := by
  refine ⟨.obj [(c!"string_field", .str c!"foobar"), (c!"num_field", .num c!"123")],
    { Message.new c!"u" with body := .obj [(c!"num_field", .num c!"123"), (c!"string_field", .str c!"foobar")] },
    parseJson_iff.1 (by decide +kernel), .obj (by decide) ?_, by decide +kernel, by decide +kernel⟩
  intro k v h
  simp only [List.mem_cons, Prod.mk.injEq, List.not_mem_nil, or_false] at h
  rcases h with ⟨rfl, rfl⟩ | ⟨rfl, rfl⟩
  · exact .str _
  · exact .num _

/-! ## C90 -/

/-- C90, as written, is false: a message whose header names another algorithm than the three built in ones
is signed by plugged in code, and verified under no key. -/
theorem C90_own_label_violated (P : Prims) (alg : Str) (halg : alg ∉ [c!"EdDSA", c!"ES256", c!"ES256K"])
    (f : Bytes → Bytes → Res Bytes) (sk : Bytes) (m : Message) (hm : m.WF P.f64) (ha : m.jwm.alg = some alg)
    (hf : ∀ b, ∃ sig, f sk b = .ok sig) (o : HOrd) :
    ∃ t, m.sign o f sk = .ok t ∧ ∀ o' key m', Message.verify P o' (utf8 t) key ≠ .ok m' := by
  obtain ⟨sig, hsig⟩ := hf (Message.signingInput (headerB64 (o.sub 0) (Spec.signedHeader m)) (Spec.payloadText (o.sub 1) m))
  refine ⟨_, sign_of (by rw [ha]; simp) hsig, fun o' key m' h => ?_⟩
  obtain ⟨j, hj, hp, hsigs⟩ := jwsOf_signatures (F := P.f64) (m := m)
    (p := Spec.payloadText (o.sub 1) m) (sig := sig) (o.sub 2) hm.jwm
  have hno : ∀ e, SignAlg.ofStr alg ≠ .ok e := by
    intro e he
    unfold SignAlg.ofStr at he
    simp only [List.mem_cons, List.not_mem_nil, or_false, not_or] at halg
    rw [if_neg halg.1, if_neg halg.2.1, if_neg halg.2.2] at he
    cases he
  have hone : ∀ o'' b, Message.verifyOne P o'' j.payload key (Spec.signatureOf m sig) ≠ .ok b := by
    intro o'' b hb
    have h1 : (Spec.signatureOf m sig).getAlg = some alg := by
      simp [Signature.getAlg, Signature.getter, fallback, Spec.signatureOf, Spec.signedHeader, ha]
    simp only [Message.verifyOne, h1, Res.ofOpt_some, Res.bind_ok, Res.bind_eq_ok] at hb
    obtain ⟨e, he, -⟩ := hb
    exact hno e he
  unfold Message.verify at h
  rw [ofBytes_jws, hj, Res.ofOpt_some, Res.bind_ok, hsigs, Res.bind_ok] at h
  simp only [Res.bind_eq_ok] at h
  obtain ⟨ok, hok, h⟩ := h
  cases ok with
  | false => cases h
  | true =>
    obtain ⟨i, s, hi, hc, -⟩ := verifyLoop_iff.1 hok
    have hs : s = Spec.signatureOf m sig := by
      have := List.mem_of_getElem? hi
      split at this
      · simpa using this
      · obtain ⟨_, -, rfl⟩ := List.mem_map.1 this; rfl
    subst hs
    exact hone _ _ (verifyOne_iff.2 hc)

/-- C90, what holds: with one of the built in labels, the signature of plugged in code is accepted exactly
when the built in algorithm accepts it. -/
theorem C90_built_in_label_partial (P : Prims) (a : SignAlg) (f : Bytes → Bytes → Res Bytes) (sk : Bytes) (m : Message)
    (hm : m.WF P.f64) (hf : HeaderFixed m.jwm) (o : HOrd) (t : Str) (hs : (m.asJws a).sign o f sk = .ok t) :
    ∃ input sig, f sk input = .ok sig ∧ ∀ o' key,
      (∃ m', Message.verify P o' (utf8 t) key = .ok m') ↔ P.verify a key input sig = some true := by
  obtain ⟨input, sig, h1, h2⟩ := signed_accepting P a f sk m hm hf o t hs
  refine ⟨input, sig, h1, fun o' key => ⟨fun ⟨m', h⟩ => ((h2 o' key m').1 h).1, fun h => ⟨_, (h2 o' key _).2 ⟨h, rfl⟩⟩⟩⟩

/-- C90: a message with its own label, and plugged in code that signs everything. -/
example : ∃ t, { richMessage with jwm := { richMessage.jwm with alg := some c!"X1" } }.sign HOrd.id
      (fun k b => .ok (k ++ b)) [1] = .ok t ∧
    ∀ o' key m', Message.verify (toy fun _ => none) o' (utf8 t) key ≠ .ok m' := by
  have h := richMessage_wf (toy fun _ => none).f64
  exact C90_own_label_violated _ c!"X1" (by decide) _ _
    { richMessage with jwm := { richMessage.jwm with alg := some c!"X1" } }
    ⟨h.jwm, h.other, h.to, h.recipients, h.canon, h.nums, h.depth⟩ rfl (fun _ => ⟨_, rfl⟩) _

/-- C90: plugged in code whose signatures the built in algorithm accepts under one key and not another. -/
example : ∃ t o' m', (richMessage.asJws .edDsa).sign HOrd.id (fun k b => .ok [toySum k, toySum b]) [1] = .ok t ∧
    Message.verify (toy fun _ => none) o' (utf8 t) [1] = .ok m' := by
  have hne : (richMessage.asJws .edDsa).jwm.alg ≠ none := by decide
  have hs := sign_of (o := HOrd.id) (signer := fun k b => .ok [toySum k, toySum b]) (key := [1]) hne rfl
  obtain ⟨input, sig, h1, h2⟩ := C90_built_in_label_partial (toy fun _ => none) .edDsa _ [1] richMessage
    (richMessage_wf _) ⟨(by intro k h; cases h), (by intro k h; cases h)⟩ HOrd.id _ hs
  obtain ⟨m', hm'⟩ := (h2 HOrd.id [1]).2 (by
    obtain rfl := Res.ok.inj h1
    simp [toy])
  exact ⟨_, HOrd.id, m', hs, hm'⟩

end Verif
