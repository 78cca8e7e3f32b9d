import Verif.Spec.Outage
import Verif.Props.Resolver

/-!
# A resolver that fails

C146.  Sealing notices every failure of the resolver.  Receiving notices only a failure of the first call;
a later one is reported as if the envelope were for someone else.
-/

namespace Verif

open Spec Asks

theorem snd_bind_ok {α β : Type} {x : Asks α} {f : α → Asks β} {n : Nat} {b : β} (h : ((x >>= f) n).2 = .ok b) :
    ∃ a, (x n).2 = .ok a ∧ (f a (x n).1).2 = .ok b := by
  rw [bind_eq] at h
  cases hx : x n with
  | mk k y =>
    rw [hx] at h
    cases y with
    | ok a => exact ⟨a, rfl, h⟩
    | err e => cases h
    | panic => cases h

theorem bind_err_at {α β : Type} {x : Asks α} {f : α → Asks β} {n k : Nat} {e : Err} (h : x n = (k, .err e)) :
    (x >>= f) n = (k, .err e) := by
  rw [bind_eq, h]

theorem publicKeyForR_fails {A : Answers} {did : Str} {n : Nat} (h : A n did = none) :
    publicKeyForR A did none n = (n + 1, .err .didResolveFailed) := by
  simp [publicKeyForR, bind_eq, Asks.resolve, step, h, Res.ofOpt]

theorem sharedForR_fails {P : Prims} {A : Answers} {sk : Bytes} {did : Str} {n : Nat} (h : A n did = none) :
    sharedForR P A sk did none n = (n + 1, .err .didResolveFailed) :=
  bind_err_at (publicKeyForR_fails h)

theorem generateKekR_fails {P : Prims} {A : Answers} {did : Str} {sk ze : Bytes} {alg : Str} {n : Nat}
    (h : A n did = none) : generateKekR P A did sk ze alg none n = (n + 1, .err .didResolveFailed) :=
  bind_err_at (sharedForR_fails h)

theorem publicKeyForR_answered {A : Answers} {did : Str} {n : Nat} {k : Bytes}
    (h : (publicKeyForR A did none n).2 = .ok k) : Answered A n did := by
  simp only [publicKeyForR, bind_eq, Asks.resolve, step] at h
  cases hd : A n did with
  | none => rw [hd] at h; cases h
  | some d =>
    rw [hd] at h
    cases hk : d.keyFor c!"X25519" with
    | none => simp [hk] at h
    | some k => exact ⟨d, k, hd, hk⟩

theorem sharedForR_answered {P : Prims} {A : Answers} {sk : Bytes} {did : Str} {n : Nat} {z : Bytes}
    (h : (sharedForR P A sk did none n).2 = .ok z) : Answered A n did := by
  obtain ⟨k, h1, -⟩ := snd_bind_ok h
  exact publicKeyForR_answered h1

theorem encryptCekR_answered {P : Prims} {A : Answers} {r : RecRand} {m : Message} {sk : Bytes} {dest : Str} {cek : Bytes}
    {n : Nat} {x : Recipient} (h : (encryptCekR P A r m sk dest cek none n).2 = .ok x) :
    Answered A n dest ∧ Answered A (n + 1) dest := by
  obtain ⟨alg, -, h⟩ := snd_bind_ok h
  obtain ⟨ze, h1, h⟩ := snd_bind_ok h
  have hn := sharedForR_none P A r.epk dest n
  obtain ⟨kek, h2, -⟩ := snd_bind_ok h
  obtain ⟨z, h2, -⟩ := snd_bind_ok h2
  refine ⟨sharedForR_answered h1, ?_⟩
  have := sharedForR_answered h2
  rwa [show (sharedForR P A r.epk dest none (step (Res.ofOpt (.generic "missing encryption 'alg' in header") m.jwm.alg) n).1).1 =
    n + 1 from hn] at this

theorem sealRecipientsR_answered {P : Prims} {A : Answers} {r : Nat → RecRand} {m : Message} {sk cek : Bytes} {i n : Nat}
    {l : List Str} {rs : List Recipient}
    (h : (Message.sealRecipientsR P A r m sk cek i (l.map fun d => (d, none)) n).2 = .ok rs) (q : Nat) (d : Str)
    (hq : l[q]? = some d) : Answered A (n + 2 * q) d ∧ Answered A (n + 2 * q + 1) d := by
  induction l generalizing i n rs q with
  | nil => cases hq
  | cons e l ih =>
    rw [List.map_cons, Message.sealRecipientsR] at h
    obtain ⟨x, h1, h⟩ := snd_bind_ok h
    have hn := encryptCekR_exact P A (r i) m sk e cek n x h1
    obtain ⟨xs, h2, -⟩ := snd_bind_ok h
    cases q with
    | zero =>
      obtain rfl := Option.some.inj hq
      exact encryptCekR_answered h1
    | succ q =>
      have := ih h2 q hq
      rw [hn] at this
      rw [show n + 2 * (q + 1) = n + 2 + 2 * q by omega]
      exact this

theorem zip_none (l : List Str) : l.zip (List.replicate l.length (none : Option Bytes)) = l.map fun d => (d, none) := by
  induction l with
  | nil => rfl
  | cons a l ih => rw [List.length_cons, List.replicate_succ, List.zip_cons_cons, ih, List.map_cons]

/-- C146, what holds.  Sealing notices every failure: a message is sealed only if every one of the two answers about
every recipient was a document with a key. -/
theorem C146_seal_partial (P : Prims) (A : Answers) (r : Message.SealRand) (m : Message) (sk : Bytes) (n : Nat) (t : Str)
    (h : (Message.sealJweR P A r m sk none n).2 = .ok t) (i : Nat) (dest : Str) (hi : m.didcomm.to[i]? = some dest) :
    Answered A (n + 2 * i) dest ∧ Answered A (n + 2 * i + 1) dest := by
  unfold Message.sealJweR at h
  split at h
  · cases h
  simp only [Message.sealKeys, step_ok_bind] at h
  split at h
  · cases h
  split at h
  · cases h
  rw [zip_none] at h
  obtain ⟨rs, h1, -⟩ := snd_bind_ok h
  exact sealRecipientsR_answered h1 i dest hi

/-- C146, what holds.  If the first answer is a failure, that is what is reported: by sealing ... -/
theorem C146_seal_error_partial (P : Prims) (A : Answers) (r : Message.SealRand) (m : Message) (sk : Bytes) (n : Nat)
    (dest alg : Str) (rest : List Str) (hsk : sk.length = 32) (hto : m.didcomm.to = dest :: rest)
    (hal : m.jwm.alg = some alg) (hf : m.flatJwe = true → rest = []) (hA : A n dest = none) :
    Message.sealJweR P A r m sk none n = (n + 1, .err .didResolveFailed) := by
  have hx : encryptCekR P A (r.perRec 0) m sk dest cek none n = (n + 1, .err .didResolveFailed) := by
    unfold encryptCekR
    rw [hal, Res.ofOpt_some, step_ok_bind]
    exact bind_err_at (sharedForR_fails hA)
  have hr : Message.sealRecipientsR P A r.perRec m sk cek 0
      ((dest :: rest).map fun d => (d, none)) n = (n + 1, .err .didResolveFailed) := by
    rw [List.map_cons, Message.sealRecipientsR]
    exact bind_err_at hx
  unfold Message.sealJweR
  rw [if_neg (by simp [hsk])]
  simp only [Message.sealKeys, step_ok_bind]
  rw [if_neg (by simp [hto]), if_neg (by rintro ⟨h1, h2⟩; rw [hto, hf h1] at h2; simp at h2), zip_none, hto]
  exact bind_err_at hr

/-- C146, what holds: ... and by receiving. -/
theorem C146_receive_error_partial (P : Prims) (A : Answers) (o : HOrd) (t : Str) (sk : Bytes) (vk : Option Bytes) (n : Nat)
    (j : Jwe) (alg frm : Str) (ht : Message.messageType P t = .ok .jwe) (hj : Jwe.ofText P.f64 t = some j)
    (ha : j.getAlg = some alg) (hs : j.getSkid = some frm) (hA : A n frm = none) :
    Message.receiveR P A o t (some sk) none vk n = (n + 1, .err .didResolveFailed) := by
  have hk : Message.senderKeyR A j none n = (n + 1, .err .didResolveFailed) := by
    simp [Message.senderKeyR, hs, bind_eq, Asks.resolve, step, hA, Res.ofOpt]
  refine bind_err_at ?_
  unfold Message.decryptStepR
  simp only [ht, step_ok_bind, if_true, Res.ofOpt_some]
  unfold Message.receiveJweR
  simp only [hj, ha, Res.ofOpt_some, step_ok_bind]
  exact bind_err_at hk

theorem decryptCekR_fails {P : Prims} {A : Answers} {j : Jwe} {sk : Bytes} {r : Recipient} {alg frm : Str}
    {kty crv x : Str} {y : Option Str} {pub : Bytes} (ha : j.getAlg = some alg) (hs : j.getSkid = some frm)
    (he : r.header.epk = some ⟨kty, crv, x, y⟩)
    (hd : b64Decode x = some pub) (hl : pub.length = 32) (hsk : sk.length = 32) (n : Nat) (hA : A n frm = none) :
    decryptCekR P A j sk r none n = (n + 1, .err .didResolveFailed) := by
  unfold decryptCekR
  rw [ha, hs, he]
  simp only [Res.ofOpt_some, step_ok_bind, hd, hl, if_true, arrayRef32, hsk, Nat.le_refl]
  exact bind_err_at (generateKekR_fails hA)

theorem firstKeyR_fails {P : Prims} {A : Answers} {j : Jwe} {sk : Bytes} {l : List Recipient} {n : Nat}
    (h : ∀ x ∈ l, ∀ k, n ≤ k → decryptCekR P A j sk x none k = (k + 1, .err .didResolveFailed)) :
    Message.firstKeyR P A j sk none l n = (n + l.length, .err (.generic "could not decrypt cek")) := by
  induction l generalizing n with
  | nil => rfl
  | cons x l ih =>
    rw [Message.firstKeyR, h x (by simp) n (Nat.le_refl n)]
    simp only
    rw [ih fun y hy k hk => h y (by simp [hy]) k (by omega), List.length_cons]
    congr 1
    omega

/-- C146 fails for receiving.  If the resolver answers the first call and fails from then on, everyone who receives a sealed
envelope, recipient or not, is told that the content key could not be decrypted; that the resolver failed is not
reported.  It is what a stranger is told when the resolver works (C144_stranger_violated). -/
theorem C146_receive_violated (P : Prims) (hP : Laws P) (r : Message.SealRand) (m : Message) (hw : m.jwm.WF)
    (ssk : Bytes) (keys : Option (List (Option Bytes))) (t frm : Str) (hfrom : m.didcomm.from = some frm)
    (hseal : m.sealJwe P r ssk keys = .ok t)
    (A : Answers) (n : Nat) (d : DidDoc) (spk : Bytes) (hA : A n frm = some d) (hd : d.keyFor c!"X25519" = some spk)
    (hpk : 32 ≤ spk.length) (hfail : ∀ k, n < k → A k frm = none)
    (sk : Bytes) (vk : Option Bytes) (o : HOrd) (hsk : sk.length = 32) :
    Message.receiveR P A o t (some sk) none vk n =
      (n + 1 + m.didcomm.to.length, .err (.generic "could not decrypt cek")) := by
  obtain ⟨pks, rs, a, c, tag, alg, hp, hpl, hk, hto, hfl, hrs, hl, hal, ha, he, -, rfl⟩ := seal_ok hseal
  have halg := envelope_alg (rs := rs) (iv := r.iv.1) (c := c) (tag := tag) hal
  have hskid : (Spec.envelope m rs r.iv.1 c tag).getSkid = some frm := by rw [envelope_skid, hfrom]
  have h1 := jwe_ofText_text (F := P.f64) (r.ord.sub 2)
    (envelope_wf (m := m) (iv := r.iv.1) (c := c) (tag := tag) hw (sealRecipients_wf hrs))
  have hs : Message.senderKeyR A (Spec.envelope m rs r.iv.1 c tag) none n = (n + 1, .ok spk) := by
    simp [Message.senderKeyR, hskid, bind_eq, Asks.resolve, step, hA, hd, Res.ofOpt]
  have hf := firstKeyR_fails (P := P) (A := A) (j := Spec.envelope m rs r.iv.1 c tag) (sk := sk) (l := rs) (n := n + 1) (by
    intro x hx k hk
    obtain ⟨i, hi, rfl⟩ := List.getElem_of_mem hx
    obtain ⟨d, key, -, h2⟩ := (sealRecipients_ok hrs).2 i _ (List.getElem?_eq_getElem hi)
    obtain ⟨alg', ze, kek, ka, iv, c, tag, ha', hz, hk', hw, -, he, -, -, hepk, ho, -⟩ := encryptCek_ok h2
    exact decryptCekR_fails halg hskid hepk (b64Decode_encode _) (hP.pub_len _) hsk k (hfail k (by omega)))
  rw [hl] at hf
  refine bind_err_at ?_
  unfold Message.decryptStepR
  simp only [messageType_envelope, step_ok_bind, if_true, Res.ofOpt_some]
  rw [receiveJweR_entries h1 halg hs (by omega) hpk ha (envelope_recipients hfl)]
  exact bind_err_at hf

/-! ## Examples -/

/-- A resolver that knows the sender and is asked once. -/
def once : Answers := fun n _ => if n = 0 then some (docOf (exampleKey 3)) else none

/-- C146: the rightful recipient is told that the content key could not be decrypted, and has the message if the resolver
works. -/
example : ∃ t rs, Message.receiveR (toy senderDoc) once HOrd.id t (some (exampleKey 1)) none none 0 =
      (3, .err (.generic "could not decrypt cek")) ∧
    Message.receive (toy senderDoc) HOrd.id t (some (exampleKey 1)) none none =
      .ok { exampleMessage with recipients := some rs } := by
  obtain ⟨t, ht⟩ := sealed_for (exampleKey 2)
  have hl := toy_laws senderDoc
  obtain ⟨j, rs, -, -, -, h⟩ := C17_every_recipient (toy senderDoc) hl exampleRand exampleMessage (exampleKey 3) _ t _
    (exampleMessage_wf _) (by decide) ⟨(by intro k h; cases h), (by intro k h; cases h)⟩ (by decide) rfl ht
  refine ⟨t, rs, ?_, h 0 c!"did:a:b" (exampleKey 1) none none HOrd.id rfl (by decide) (.inl rfl) (.inr ⟨rfl, _, rfl, rfl⟩)
    (by simp)⟩
  exact C146_receive_violated (toy senderDoc) hl exampleRand exampleMessage
    (exampleMessage_wf (toy senderDoc).f64).jwm _ _ t _ rfl ht once 0 (docOf (exampleKey 3)) _ rfl rfl
    (Nat.le_of_eq ((toy_laws fun _ => none).pub_len _).symm) (by intro k hk; unfold once; rw [if_neg (by omega)]) _ none HOrd.id (by decide)

/-- C146: a resolver that fails at once. -/
example (t : Str) (o : HOrd) (ht : exampleMessage.sealJwe (toy senderDoc) exampleRand (exampleKey 3)
      (some [some ((toy fun _ => none).x25519Pub (exampleKey 1)), some ((toy fun _ => none).x25519Pub (exampleKey 2))]) = .ok t) :
    Message.receiveR (toy senderDoc) (fun _ _ => none) o t (some (exampleKey 1)) none none 0 = (1, .err .didResolveFailed) ∧
    Message.sealJweR (toy senderDoc) (fun _ _ => none) exampleRand exampleMessage (exampleKey 3) none 0 =
      (1, .err .didResolveFailed) := by
  obtain ⟨pks, rs, a, c, tag, alg, hp, hpl, hk, hto, hfl, hrs, hl, hal, ha, he, -, rfl⟩ := seal_ok ht
  exact ⟨C146_receive_error_partial _ _ _ _ _ _ _ _ alg _ messageType_envelope (jwe_ofText_text _
      (envelope_wf (exampleMessage_wf (toy senderDoc).f64).jwm (sealRecipients_wf hrs))) (envelope_alg hal)
      (envelope_skid.trans rfl) rfl,
    C146_seal_error_partial _ _ _ _ _ _ c!"did:a:b" c!"ECDH-1PU+XC20PKW" [c!"did:c:d"] (by decide) rfl rfl
      (by intro h; cases h) rfl⟩

end Verif
