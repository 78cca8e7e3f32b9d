import Verif.Lemma.Resolver
import Verif.Props.Wrong
import Verif.Props.Outcome
import Verif.Props.Open

/-!
# What is asked of the resolver

C144.
-/

namespace Verif

open Spec Asks

/-! ## The model with changing answers is the model -/

/-- C144.  If the answers do not change, receiving and sealing give what they give with a resolver that is a function of
the DID. -/
theorem C144_same (P : Prims) (n : Nat) :
    (∀ o t sk ek vk, (Message.receiveR P (fun _ => P.resolve) o t sk ek vk n).2 = Message.receive P o t sk ek vk) ∧
    ∀ r m sk keys, (Message.sealJweR P (fun _ => P.resolve) r m sk keys n).2 = m.sealJwe P r sk keys :=
  ⟨fun o t sk ek vk => Message.receiveR_same P o t sk ek vk n,
    fun r m sk keys => Message.sealJweR_same P r m sk keys n⟩

/-! ## Receiving -/

theorem firstKeyR_given (P : Prims) (A : Answers) (j : Jwe) (sk k : Bytes) (l : List Recipient) :
    Same (Message.firstKeyR P A j sk (some k) l) (Message.firstKey P j sk (some k) l) := by
  induction l with
  | nil => intro n; rfl
  | cons r l ih =>
    intro n
    have h : (decryptCekR P A j sk r (some k) n).2 = decryptCek P j sk r (some k) :=
      decryptCekR_call P A j sk r (some k) n
    unfold Message.firstKeyR Message.firstKey
    cases hn : decryptCekR P A j sk r (some k) n with
    | mk i y =>
      rw [hn] at h
      rw [← show y = _ from h]
      cases y with
      | ok a => rfl
      | err e => exact ih i
      | panic => rfl

theorem receiveR_given (P : Prims) (A : Answers) (o : HOrd) (t : Str) (k : Bytes) (sk vk : Option Bytes) :
    Same (Message.receiveR P A o t sk (some k) vk) (Message.receive P o t sk (some k) vk) := by
  refine same_bind (same_bind (same_step _) fun x => ?_) fun _ => same_bind (same_step _) fun _ => same_step _
  split
  · refine same_bind (same_step _) fun s => same_bind (same_step _) fun j => same_bind (same_step _) fun _ =>
      same_bind (same_step _) fun _ => same_bind (same_step _) fun _ => same_bind (same_step _) fun _ =>
        same_bind (same_step _) fun _ => same_bind ?_ fun _ => same_bind (same_step _) fun _ => same_step _
    unfold Message.contentKeyR Message.contentKey
    cases Message.recipientsOf j with
    | some l => exact firstKeyR_given P A j s k l
    | none => exact same_step _
  · exact same_step _

/-- The number of entries of an envelope. -/
def Spec.entries (P : Prims) (t : Str) : Nat :=
  (((Jwe.ofText P.f64 t).bind Message.recipientsOf).getD []).length

theorem receiveJweR_atMost (P : Prims) (A : Answers) (o : HOrd) (t : Str) (sk : Bytes) (key : Option Bytes) :
    AtMost (if key = none then entries P t + 1 else 0) (Message.receiveJweR P A o t sk key) := by
  unfold Message.receiveJweR entries
  cases Jwe.ofText P.f64 t with
  | none => exact atMost_mono (atMost_step (.err .serde)) (Nat.zero_le _)
  | some j =>
    simp only [Res.ofOpt_some, step_ok_bind, Option.bind_some]
    have h : ∀ plain, AtMost (if key = none then ((Message.recipientsOf j).getD []).length else 0)
        (Message.contentKeyR P A j sk key plain) := by
      intro plain
      unfold Message.contentKeyR
      cases Message.recipientsOf j with
      | some l => exact Message.firstKeyR_atMost P A j sk key l
      | none => exact atMost_mono (atMost_step _) (Nat.zero_le _)
    refine atMost_mono (atMost_bind_step fun _ => atMost_bind (Message.senderKeyR_atMost A j key) fun _ =>
      atMost_bind_step fun _ => atMost_bind_step fun _ => atMost_bind_step fun _ =>
        atMost_bind (l := 0) (h _) fun _ => atMost_bind_step fun _ => atMost_step _) ?_
    split <;> omega

/-- C144 holds with bounds: the resolver is asked at most once for each entry of the envelope, and once more; and never if
the key of the sender is given, in which case its answers do not matter. -/
theorem C144_receive_partial (P : Prims) (A : Answers) (o : HOrd) (t : Str) (sk ek vk : Option Bytes) (n : Nat) :
    (Message.receiveR P A o t sk ek vk n).1 ≤ n + (entries P t + 1) ∧
    ∀ k, Message.receiveR P A o t sk (some k) vk n = (n, Message.receive P o t sk (some k) vk) := by
  have h : ∀ ek, AtMost (if ek = none then entries P t + 1 else 0) (Message.receiveR P A o t sk ek vk) := by
    intro ek
    refine atMost_bind (l := 0) (atMost_bind_step fun x => ?_) fun _ => atMost_bind_step fun _ => atMost_step _
    split
    · exact atMost_bind_step fun s => receiveJweR_atMost P A _ t s ek
    · exact atMost_mono (atMost_step _) (Nat.zero_le _)
  refine ⟨?_, fun k => ?_⟩
  · have := (h ek n).2
    split at this <;> omega
  · have h1 := h (some k) n
    rw [if_neg (by simp)] at h1
    exact Prod.ext (by omega) (receiveR_given P A o t k sk vk n)

/-- C144 holds for given keys: sealing does not ask the resolver. -/
theorem C144_seal_partial (P : Prims) (A : Answers) (r : Message.SealRand) (m : Message) (sk : Bytes)
    (keys : List (Option Bytes)) (hk : none ∉ keys) (n : Nat) :
    (Message.sealJweR P A r m sk (some keys) n).1 = n := by
  have h : AtMost 0 (Message.sealJweR P A r m sk (some keys)) := by
    unfold Message.sealJweR
    split
    · exact atMost_step _
    unfold Message.sealKeys
    simp only
    split
    · exact atMost_step (.err _)
    rw [step_ok_bind]
    split
    · exact atMost_step _
    split
    · exact atMost_step _
    refine atMost_bind (k := 0) (l := 0) (sealRecipientsR_atMost P A _ _ _ _ _ _ ?_) fun _ => atMost_bind_step fun _ =>
      atMost_step _
    rintro ⟨d, k⟩ hp h0
    simp only at h0
    subst h0
    exact hk (List.of_mem_zip hp).2
  have := h n
  omega

/-! ## Sealing asks twice -/

/-- C144 fails for sealing: whatever the answers, the resolver is asked twice for every recipient. -/
theorem C144_seal_violated (P : Prims) (A : Answers) (r : Message.SealRand) (m : Message) (sk : Bytes) (n : Nat) (t : Str)
    (h : (Message.sealJweR P A r m sk none n).2 = .ok t) :
    (Message.sealJweR P A r m sk none n).1 = n + 2 * m.didcomm.to.length := by
  have hx : Exact (2 * m.didcomm.to.length) (Message.sealJweR P A r m sk none) := by
    unfold Message.sealJweR
    split
    · intro n a h; cases h
    unfold Message.sealKeys
    rw [step_ok_bind]
    split
    · intro n a h; cases h
    split
    · intro n a h; cases h
    have h1 := sealRecipientsR_exact P A r.perRec m sk cek 0
      (m.didcomm.to.zip (List.replicate m.didcomm.to.length none)) (by
        rintro ⟨d, k⟩ hp
        exact (List.mem_replicate.1 (List.of_mem_zip hp).2).2)
    rw [List.length_zip, List.length_replicate, Nat.min_self] at h1
    exact exact_bind (l := 0) h1 fun _ => exact_bind_step fun _ => exact_step _
  exact hx n t h

/-! ## Receiving asks again for every entry -/

theorem senderKeyR_none {P : Prims} {j : Jwe} {frm : Str} {pk : Bytes} (hs : j.getSkid = some frm)
    (hk : KeyFor P frm none pk) (n : Nat) :
    Message.senderKeyR (fun _ => P.resolve) j none n = (n + 1, .ok pk) := by
  rcases hk with h | ⟨-, d, h1, h2⟩
  · cases h
  simp [Message.senderKeyR, hs, bind_eq, Asks.resolve, step, h1, h2, Res.ofOpt]

/-- `receive_jwe` of an envelope with entries, once the key of the sender is found: that key has no part in what follows. -/
theorem receiveJweR_entries {P : Prims} {A : Answers} {o : HOrd} {t : Str} {sk pk : Bytes} {key : Option Bytes} {j : Jwe}
    {alg : Str} {a : CryptoAlg} {l : List Recipient} {n k : Nat} (hj : Jwe.ofText P.f64 t = some j)
    (ha : j.getAlg = some alg) (hs : Message.senderKeyR A j key n = (k, .ok pk)) (hsk : 32 ≤ sk.length) (hpk : 32 ≤ pk.length)
    (hal : CryptoAlg.ofStr alg = .ok a) (hl : Message.recipientsOf j = some l) :
    Message.receiveJweR P A o t sk key n = (Message.firstKeyR P A j sk key l >>= fun cek =>
      step (Message.decrypt P (o.sub 0) (utf8 t) (a.decrypter P) cek) >>= fun m => step (.ok (m.text (o.sub 1)))) k := by
  unfold Message.receiveJweR
  simp only [hj, ha, Res.ofOpt_some, step_ok_bind]
  rw [bind_eq]
  simp only [hs, arrayRef32, hsk, hpk, if_true, step_ok_bind, hal, Message.contentKeyR, hl]
  rfl

theorem receiveR_entries {P : Prims} {A : Answers} {o : HOrd} {t : Str} {sk pk : Bytes} {ek vk : Option Bytes} {j : Jwe}
    {alg : Str} {a : CryptoAlg} {l : List Recipient} {n k : Nat} (ht : Message.messageType P t = .ok .jwe)
    (hj : Jwe.ofText P.f64 t = some j)
    (ha : j.getAlg = some alg) (hs : Message.senderKeyR A j ek n = (k, .ok pk)) (hsk : 32 ≤ sk.length) (hpk : 32 ≤ pk.length)
    (hal : CryptoAlg.ofStr alg = .ok a) (hl : Message.recipientsOf j = some l) :
    (Message.receiveR P A o t (some sk) ek vk n).1 = (Message.firstKeyR P A j sk ek l k).1 := by
  refine (fst_bind_quiet fun _ => atMost_bind_step fun _ => atMost_step _).trans ?_
  unfold Message.decryptStepR
  simp only [ht, step_ok_bind, if_true, Res.ofOpt_some]
  rw [receiveJweR_entries hj ha hs hsk hpk hal hl]
  exact fst_bind_quiet fun _ => atMost_bind_step fun _ => atMost_step _

/-- An entry that gets to the resolver. -/
def Spec.Asking (j : Jwe) (sk : Bytes) (r : Recipient) : Prop :=
  ∀ P A n, (decryptCekR P A j sk r none n).1 = n + 1

theorem firstKeyR_count {P : Prims} {j : Jwe} {sk : Bytes} {l l' : List Recipient} (hr : ∀ x ∈ l, Asking j sk x)
    (he : ∀ x ∈ l, ∃ e, decryptCek P j sk x none = .err e) (n : Nat) :
    Message.firstKeyR P (fun _ => P.resolve) j sk none (l ++ l') n =
      Message.firstKeyR P (fun _ => P.resolve) j sk none l' (n + l.length) := by
  induction l generalizing n with
  | nil => rfl
  | cons x l ih =>
    obtain ⟨e, h⟩ := he x (by simp)
    have h1 := hr x (by simp) P (fun _ => P.resolve) n
    have h2 := decryptCekR_same P j sk x none n
    rw [h] at h2
    rw [List.cons_append, Message.firstKeyR]
    cases hn : decryptCekR P (fun _ => P.resolve) j sk x none n with
    | mk k y =>
      rw [hn] at h1 h2
      simp only at h1 h2
      subst h1 h2
      simp only
      rw [ih (fun y hy => hr y (by simp [hy])) (fun y hy => he y (by simp [hy]))]
      congr 1
      simp only [List.length_cons]
      omega

theorem sealed_asking {P : Prims} (hP : Laws P) {r : RecRand} {m : Message} {ssk sk : Bytes} {d : Str} {key : Option Bytes}
    {rc : Recipient} {j : Jwe} {alg frm : Str} (h : encryptCek P r m ssk d cek key = .ok rc) (ha : j.getAlg = some alg)
    (hs : j.getSkid = some frm) (hsk : sk.length = 32) : Asking j sk rc := by
  obtain ⟨alg', ze, kek, ka, iv, c, tag, ha', hz, hk, hw, -, he, -, -, hepk, ho, -⟩ := encryptCek_ok h
  exact fun P' A n => decryptCekR_reach ha hs hepk (b64Decode_encode _) (hP.pub_len _) hsk n

/-- C144 fails for receiving: a reader for whom no entry of a sealed envelope opens asks the resolver for the sender's DID once
for each of the entries, and once more. -/
theorem C144_stranger_violated (P : Prims) (hP : Laws P) (r : Message.SealRand) (m : Message) (hw : m.jwm.WF)
    (ssk : Bytes) (keys : Option (List (Option Bytes))) (t frm : Str) (hfrom : m.didcomm.from = some frm)
    (hseal : m.sealJwe P r ssk keys = .ok t)
    (sk spk : Bytes) (vk : Option Bytes) (o : HOrd) (hsk : sk.length = 32) (hpk : spk.length = 32)
    (hks : KeyFor P frm none spk) (hcl : ∀ i, Spec.EntryClosed P r m ssk keys sk spk i) :
    Message.receiveR P (fun _ => P.resolve) o t (some sk) none vk 0 =
      (m.didcomm.to.length + 1, .err (.generic "could not decrypt cek")) := by
  have h89 := C89_wrong_key P hP r m hw ssk keys t frm hfrom hseal sk spk none vk o hsk hpk hks hcl
  refine Prod.ext ?_ ((Message.receiveR_same P o t (some sk) none vk 0).trans h89)
  obtain ⟨pks, rs, a, c, tag, alg, hp, hpl, hk, hto, hfl, hrs, hl, hal, ha, he, -, rfl⟩ := seal_ok hseal
  have halg := envelope_alg (rs := rs) (iv := r.iv.1) (c := c) (tag := tag) hal
  have hskid : (Spec.envelope m rs r.iv.1 c tag).getSkid = some frm := by rw [envelope_skid, hfrom]
  have h1 := jwe_ofText_text (F := P.f64) (r.ord.sub 2)
    (envelope_wf (m := m) (iv := r.iv.1) (c := c) (tag := tag) hw (sealRecipients_wf hrs))
  rw [receiveR_entries messageType_envelope h1 halg (senderKeyR_none hskid hks 0) (by omega) (by omega) ha
    (envelope_recipients hfl)]
  have hent : ∀ x ∈ rs, Asking (Spec.envelope m rs r.iv.1 c tag) sk x ∧
      ∃ e, decryptCek P (Spec.envelope m rs r.iv.1 c tag) sk x none = .err e := by
    intro x hx
    obtain ⟨i, hi, rfl⟩ := List.getElem_of_mem hx
    obtain ⟨d, k, h1, h2⟩ := (sealRecipients_ok hrs).2 i _ (List.getElem?_eq_getElem hi)
    obtain ⟨hd, hk'⟩ := zip_get h1
    rw [sealKeys_get hp hk', Nat.zero_add] at h2
    exact ⟨sealed_asking hP h2 halg hskid hsk,
      decryptCek_rejects hP h2 hd hal halg hskid hk hsk hpk hks (hcl i)⟩
  have := firstKeyR_count (l := rs) (l' := []) (fun x hx => (hent x hx).1) (fun x hx => (hent x hx).2) 1
  rw [List.append_nil] at this
  rw [show (0 + 1 : Nat) = 1 from rfl, this, ← hl]
  show 1 + rs.length = rs.length + 1
  omega

/-- C144 fails for receiving: recipient number `i` asks the resolver for the sender's DID `i + 2` times before it has the
message. -/
theorem C144_recipient_violated (P : Prims) (hP : Laws P) (r : Message.SealRand) (m : Message) (ssk : Bytes)
    (keys : Option (List (Option Bytes))) (t frm : Str) (hm : m.WF P.f64)
    (hc : Avoids m.didcomm.other classKeys) (hf : HeaderFixed m.jwm) (hj : m.jwm.typ ≠ .jws)
    (hfrom : m.didcomm.from = some frm) (hseal : m.sealJwe P r ssk keys = .ok t)
    (i : Nat) (dest : Str) (rsk : Bytes) (vk : Option Bytes) (o : HOrd) (hi : m.didcomm.to[i]? = some dest)
    (hrk : rsk.length = 32) (hkr : KeyFor P dest (Spec.keyAt keys i) (P.x25519Pub rsk))
    (hks : KeyFor P frm none (P.x25519Pub ssk))
    (hcl : ∀ n, n < i → Spec.EntryClosed P r m ssk keys rsk (P.x25519Pub ssk) n) :
    ∃ rs, Message.receiveR P (fun _ => P.resolve) o t (some rsk) none vk 0 =
      (i + 2, .ok { m with recipients := some rs, flatJwe := false, flatJws := false }) := by
  obtain ⟨rs', h89⟩ := C89_right_key P hP r m ssk keys t frm hm hc hf hj hfrom hseal i dest rsk none vk o hi hrk hkr hks hcl
  refine ⟨rs', Prod.ext ?_ ((Message.receiveR_same P o t (some rsk) none vk 0).trans h89)⟩
  obtain ⟨pks, rs, a, c, tag, alg, hp, hpl, hk, hto, hfl, hrs, hl, hal, ha, he, -, rfl⟩ := seal_ok hseal
  have halg := envelope_alg (rs := rs) (iv := r.iv.1) (c := c) (tag := tag) hal
  have hskid : (Spec.envelope m rs r.iv.1 c tag).getSkid = some frm := by rw [envelope_skid, hfrom]
  have h1 := jwe_ofText_text (F := P.f64) (r.ord.sub 2)
    (envelope_wf (m := m) (iv := r.iv.1) (c := c) (tag := tag) hm.jwm (sealRecipients_wf hrs))
  have hpl' := hP.pub_len ssk
  rw [receiveR_entries messageType_envelope h1 halg (senderKeyR_none hskid hks 0) (by omega) (by omega) ha
    (envelope_recipients hfl)]
  have hent : ∀ n (hn : n < rs.length), ∃ d, m.didcomm.to[n]? = some d ∧
      encryptCek P (r.perRec n) m ssk d cek (Spec.keyAt keys n) = .ok rs[n] := by
    intro n hn
    obtain ⟨d, k, h1, h2⟩ := (sealRecipients_ok hrs).2 n _ (List.getElem?_eq_getElem hn)
    obtain ⟨hd, hk'⟩ := zip_get h1
    rw [sealKeys_get hp hk', Nat.zero_add] at h2
    exact ⟨d, hd, h2⟩
  have hil : i < rs.length := by
    rw [hl]; exact (List.getElem?_eq_some_iff.1 hi).1
  have hbefore : ∀ x ∈ rs.take i, Asking (Spec.envelope m rs r.iv.1 c tag) rsk x ∧
      ∃ e, decryptCek P (Spec.envelope m rs r.iv.1 c tag) rsk x none = .err e := by
    intro x hx
    obtain ⟨n, hn, rfl⟩ := List.getElem_of_mem hx
    rw [List.length_take] at hn
    obtain ⟨d, hd, h2⟩ := hent n (by omega)
    rw [List.getElem_take]
    exact ⟨sealed_asking hP h2 halg hskid hrk,
      decryptCek_rejects hP h2 hd hal halg hskid hk hrk hpl' hks (hcl n (by omega))⟩
  have hcount := firstKeyR_count (l := rs.take i) (l' := rs.drop i) (fun x hx => (hbefore x hx).1)
    (fun x hx => (hbefore x hx).2) 1
  rw [List.take_append_drop, List.length_take, Nat.min_eq_left (by omega)] at hcount
  rw [show (0 + 1 : Nat) = 1 from rfl, hcount, List.drop_eq_getElem_cons hil, Message.firstKeyR]
  obtain ⟨d, hd, h2⟩ := hent i hil
  rw [hi] at hd
  obtain rfl := Option.some.inj hd
  have h3 := sealed_asking hP h2 halg hskid hrk P (fun _ => P.resolve) (1 + i)
  have h4 := decryptCekR_same P (Spec.envelope m rs r.iv.1 c tag) rsk rs[i] none (1 + i)
  rw [decryptCek_encryptCek hP h2 hal halg hskid hk hrk hkr hks] at h4
  cases hn : decryptCekR P (fun _ => P.resolve) (Spec.envelope m rs r.iv.1 c tag) rsk rs[i] none (1 + i) with
  | mk k y =>
    rw [hn] at h3 h4
    simp only at h3 h4
    subst h3 h4
    show 1 + i + 1 = i + 2
    omega

/-! ## Answers that change -/

theorem bind_start {α β : Type} {x y : Asks α} (f : α → Asks β) {n : Nat} (h : x n = y n) : (x >>= f) n = (y >>= f) n := by
  rw [bind_eq, bind_eq, h]

theorem step_err_bind {α β : Type} (e : Err) (f : α → Asks β) : (step (.err e) >>= f) = step (.err e) := rfl

theorem step_panic_bind {α β : Type} (f : α → Asks β) : (step .panic >>= f) = step .panic := rfl

theorem bind_ok_at {α β : Type} {x : Asks α} {f : α → Asks β} {n k : Nat} {a : α} (h : x n = (k, .ok a)) :
    (x >>= f) n = f a k := by
  rw [bind_eq, h]

theorem decryptCekR_answer {P : Prims} {A B : Answers} {j : Jwe} {sk : Bytes} {r : Recipient} {i : Nat} (h : A i = B i) :
    decryptCekR P A j sk r none i = decryptCekR P B j sk r none i := by
  have hk : ∀ (did : Str) (b ze : Bytes) (alg : Str),
      generateKekR P A did b ze alg none i = generateKekR P B did b ze alg none i := by
    intro did b ze alg
    refine Prod.ext ?_ ?_
    · rw [generateKekR_none, generateKekR_none]
    · rw [generateKekR_call, generateKekR_call, h]
  unfold decryptCekR
  cases j.getAlg with
  | none => simp only [Res.ofOpt_none, step_err_bind]
  | some alg =>
  cases j.getSkid with
  | none => simp only [Res.ofOpt_none, Res.ofOpt_some, step_ok_bind, step_err_bind]
  | some frm =>
  cases r.header.epk with
  | none => simp only [Res.ofOpt_none, Res.ofOpt_some, step_ok_bind, step_err_bind]
  | some e =>
  simp only [Res.ofOpt_some, step_ok_bind]
  cases b64Decode e.x with
  | none => simp only [Res.ofOpt_none, step_err_bind]
  | some pub =>
  simp only [Res.ofOpt_some, step_ok_bind]
  by_cases hp : pub.length = 32
  · simp only [hp, if_true, step_ok_bind]
    cases arrayRef32 sk with
    | ok s =>
      simp only [step_ok_bind]
      exact bind_start _ (hk _ _ _ _)
    | err e => simp only [step_err_bind]
    | panic => simp only [step_panic_bind]
  · simp only [hp, if_false, step_err_bind]

theorem firstKeyR_answer {P : Prims} {A B : Answers} {j : Jwe} {sk : Bytes} {n : Nat} (hAB : ∀ i, n < i → A i = B i)
    (l : List Recipient) : ∀ i, n < i → Message.firstKeyR P A j sk none l i = Message.firstKeyR P B j sk none l i := by
  induction l with
  | nil => intro i _; rfl
  | cons r l ih =>
    intro i hi
    unfold Message.firstKeyR
    rw [decryptCekR_answer (hAB i hi)]
    have hle := (decryptCekR_atMost P B j sk r none i).1
    cases hn : decryptCekR P B j sk r none i with
    | mk k y =>
      rw [hn] at hle
      cases y with
      | ok a => rfl
      | err e => exact ih k (by simp only at hle; omega)
      | panic => rfl

theorem receiveJweR_answer {P : Prims} {A B : Answers} {o : HOrd} {t : Str} {sk : Bytes} {n : Nat} {j : Jwe}
    {l : List Recipient} {kA kB : Bytes} (hj : Jwe.ofText P.f64 t = some j)
    (hl : Message.recipientsOf j = some l) (hsk : 32 ≤ sk.length)
    (hsA : Message.senderKeyR A j none n = (n + 1, .ok kA)) (hkA : 32 ≤ kA.length)
    (hsB : Message.senderKeyR B j none n = (n + 1, .ok kB)) (hkB : 32 ≤ kB.length)
    (hAB : ∀ i, n < i → A i = B i) :
    Message.receiveJweR P A o t sk none n = Message.receiveJweR P B o t sk none n := by
  cases ha : j.getAlg with
  | none =>
    unfold Message.receiveJweR
    simp only [hj, ha, Res.ofOpt_some, Res.ofOpt_none, step_ok_bind, step_err_bind]
  | some alg =>
    cases hal : CryptoAlg.ofStr alg with
    | ok a =>
      rw [receiveJweR_entries hj ha hsA hsk hkA hal hl, receiveJweR_entries hj ha hsB hsk hkB hal hl]
      exact bind_start _ (firstKeyR_answer hAB l (n + 1) (by omega))
    | err e =>
      unfold Message.receiveJweR
      simp only [hj, ha, Res.ofOpt_some, step_ok_bind]
      rw [bind_ok_at hsA, bind_ok_at hsB]
      simp only [arrayRef32, hsk, hkA, hkB, if_true, step_ok_bind, hal, step_err_bind]
    | panic =>
      unfold Message.receiveJweR
      simp only [hj, ha, Res.ofOpt_some, step_ok_bind]
      rw [bind_ok_at hsA, bind_ok_at hsB]
      simp only [arrayRef32, hsk, hkA, hkB, if_true, step_ok_bind, hal, step_panic_bind]

/-- C144 fails for receiving: the key found first is not the key used.  For an envelope with entries two resolvers that differ
in the first answer only give the same result, if both first answers have a key. -/
theorem C144_first_violated (P : Prims) (A B : Answers) (o : HOrd) (t : Str) (sk : Bytes) (vk : Option Bytes) (n : Nat) (j : Jwe)
    (l : List Recipient) (frm : Str) (dA dB : DidDoc) (kA kB : Bytes) (hj : Jwe.ofText P.f64 t = some j)
    (hl : Message.recipientsOf j = some l) (hs : j.getSkid = some frm) (hsk : 32 ≤ sk.length)
    (hA : A n frm = some dA) (hA' : dA.keyFor c!"X25519" = some kA) (hkA : 32 ≤ kA.length)
    (hB : B n frm = some dB) (hB' : dB.keyFor c!"X25519" = some kB) (hkB : 32 ≤ kB.length)
    (hAB : ∀ i, n < i → A i = B i) :
    Message.receiveR P A o t (some sk) none vk n = Message.receiveR P B o t (some sk) none vk n := by
  have key : ∀ (C : Answers) (d : DidDoc) (k : Bytes), C n frm = some d → d.keyFor c!"X25519" = some k →
      Message.senderKeyR C j none n = (n + 1, .ok k) := by
    intro C d k h1 h2
    simp [Message.senderKeyR, hs, bind_eq, Asks.resolve, step, h1, h2, Res.ofOpt]
  refine bind_start _ ?_
  unfold Message.decryptStepR
  cases Message.messageType P t with
  | err e => simp only [step_err_bind]
  | panic => simp only [step_panic_bind]
  | ok ty =>
    simp only [step_ok_bind, Res.ofOpt_some]
    by_cases hty : ty = .jwe
    · rw [if_pos hty, if_pos hty]
      exact receiveJweR_answer hj hl hsk (key A dA kA hA hA') hkA (key B dB kB hB hB') hkB hAB
    · rw [if_neg hty, if_neg hty]

/-- C144 holds so far: whatever the answers, the content key of an envelope comes from one entry opened with one of them. -/
theorem C144_answer_partial (P : Prims) (A : Answers) (o : HOrd) (t : Str) (sk : Bytes) (n : Nat) (j : Jwe) (l : List Recipient)
    (text : Str) (hj : Jwe.ofText P.f64 t = some j) (hl : Message.recipientsOf j = some l)
    (h : (Message.receiveJweR P A o t sk none n).2 = .ok text) :
    ∃ i r key a m, r ∈ l ∧ decryptCek { P with resolve := A i } j sk r none = .ok key ∧
      Message.decrypt P (o.sub 0) (utf8 t) (CryptoAlg.decrypter P a) key = .ok m ∧ text = m.text (o.sub 1) := by
  have hfirst : ∀ l i key, (Message.firstKeyR P A j sk none l i).2 = .ok key →
      ∃ k r, r ∈ l ∧ decryptCek { P with resolve := A k } j sk r none = .ok key := by
    intro l
    induction l with
    | nil => intro i key h; cases h
    | cons r l ih =>
      intro i key h
      unfold Message.firstKeyR at h
      have hc := decryptCekR_call P A j sk r none i
      cases hn : decryptCekR P A j sk r none i with
      | mk k y =>
        rw [hn] at h hc
        simp only at h hc
        cases y with
        | ok b =>
          obtain rfl : b = key := Res.ok.inj h
          exact ⟨i, r, by simp, hc.symm⟩
        | err e =>
          obtain ⟨k', r', h1, h2⟩ := ih k key h
          exact ⟨k', r', by simp [h1], h2⟩
        | panic => cases h
  have inv : ∀ {α β : Type} {x : Asks α} {f : α → Asks β} {i : Nat} {b : β}, ((x >>= f) i).2 = .ok b →
      ∃ a k, (x i).2 = .ok a ∧ (f a k).2 = .ok b := by
    intro α β x f i b h
    rw [bind_eq] at h
    cases hn : x i with
    | mk k y =>
      rw [hn] at h
      cases y with
      | ok a => exact ⟨a, k, rfl, h⟩
      | err e => cases h
      | panic => cases h
  unfold Message.receiveJweR at h
  simp only [hj, Res.ofOpt_some, step_ok_bind] at h
  obtain ⟨alg, _, -, h⟩ := inv h
  obtain ⟨pk, _, -, h⟩ := inv h
  obtain ⟨s, _, -, h⟩ := inv h
  obtain ⟨p, _, -, h⟩ := inv h
  obtain ⟨a, _, -, h⟩ := inv h
  obtain ⟨key, _, hk, h⟩ := inv h
  obtain ⟨m, _, hm, h⟩ := inv h
  unfold Message.contentKeyR at hk
  rw [hl] at hk
  obtain ⟨i, r, hr, hd⟩ := hfirst l _ key hk
  exact ⟨i, r, key, a, m, hr, hd, hm, (Res.ok.inj h).symm⟩

/-! ## A document that is replaced while a message is sealed -/

theorem fromSlice_eq {b x : Bytes} {n : Nat} (h : fromSlice b n = .ok x) : x = b := by
  unfold fromSlice at h
  split at h
  · exact (Res.ok.inj h).symm
  · cases h

theorem unwrap_rejects {P : Prims} {r : RecRand} {alg : Str} {kek k' : Bytes} {ka : KeyAlgorithm} {iv x : Bytes}
    (hw : wrapCek P r alg kek cek = .ok (ka, iv, x)) (hkl : k'.length = 32) (hrej : Spec.Rejects P r kek k') :
    ∃ e, unwrapCek P alg k' iv x = .err e := by
  unfold wrapCek at hw
  unfold unwrapCek
  split at hw
  · rename_i hx
    subst hx
    simp only [Res.bind_eq_ok, Res.ofOpt_eq_ok, Res.pure_eq, Res.ok.injEq, Prod.mk.injEq] at hw
    obtain ⟨k, hk1, n, hn, d, hd', -, rfl, rfl⟩ := hw
    obtain rfl := fromSlice_eq hk1
    obtain rfl := fromSlice_eq hn
    rw [if_neg (by decide), if_pos rfl]
    simp [fromSlice, r.iv12_len, hkl, hrej.2 _ hd', Res.ofOpt]
  · split at hw
    · rename_i hx
      subst hx
      simp only [Res.bind_eq_ok, Res.ofOpt_eq_ok, Res.pure_eq, Res.ok.injEq, Prod.mk.injEq] at hw
      obtain ⟨k, hk1, n, hn, d, hd', -, rfl, rfl⟩ := hw
      obtain rfl := fromSlice_eq hk1
      obtain rfl := fromSlice_eq hn
      rw [if_pos rfl]
      simp [fromSlice, r.iv24_len, hkl, hrej.1 _ hd', Res.ofOpt]
    · cases hw

theorem kek_length {P : Prims} (hP : Laws P) {z : Bytes} {alg : Str} {k : Bytes}
    (h : concatKdf P z alg none none = .ok k) : k.length = 32 := by
  simp only [concatKdf, Res.bind_eq_ok, Res.pure_eq, Res.ok.injEq] at h
  obtain ⟨_, -, rfl⟩ := h
  exact hP.sha_len _

theorem sharedForR_answer {P : Prims} {A : Answers} {sk pk : Bytes} {did : Str} {d : DidDoc} {n : Nat} (hd : A n did = some d)
    (hk : d.keyFor c!"X25519" = some pk) (hs : sk.length = 32) (hp : pk.length = 32) :
    sharedForR P A sk did none n = (n + 1, .ok (P.x25519 sk pk)) :=
  Prod.ext (sharedForR_none P A sk did n) ((sharedForR_call P A sk did none n).trans
    (sharedFor_ok (P := { P with resolve := A n }) (.inr ⟨rfl, d, hd, hk⟩) hs hp))

/-- The entry made with two answers: the ephemeral secret is agreed with the key of the first, the static secret with the key of
the second. -/
theorem encryptCekR_mixed {P : Prims} (hP : Laws P) (ht : Spec.AeadTotal P) {A : Answers} {r : RecRand} {m : Message}
    {sk pk1 pk2 : Bytes} {dest alg : Str} {d1 d2 : DidDoc} {n : Nat} (hal : m.jwm.alg = some alg)
    (hs : alg ∈ Spec.supportedAlgs) (hsk : sk.length = 32)
    (h1 : A n dest = some d1) (h1' : d1.keyFor c!"X25519" = some pk1) (hl1 : pk1.length = 32)
    (h2 : A (n + 1) dest = some d2) (h2' : d2.keyFor c!"X25519" = some pk2) (hl2 : pk2.length = 32) :
    ∃ rc kek ka iv c tag, encryptCekR P A r m sk dest cek none n = (n + 2, .ok rc) ∧
      Spec.IsKek P alg (P.x25519 r.epk pk1) (P.x25519 sk pk2) kek ∧ wrapCek P r alg kek cek = .ok (ka, iv, c ++ tag) ∧
      rc.encryptedKey = b64Encode c ∧
      rc.header.epk = some ⟨c!"OKP", c!"X25519", b64Encode (P.x25519Pub r.epk), none⟩ ∧
      rc.header.other = (HMap.empty.insert c!"iv" (b64Encode iv)).insert c!"tag" (b64Encode tag) := by
  have hlen : (utf8 alg).length < 2 ^ 32 := by
    simp only [Spec.supportedAlgs, List.mem_cons, List.not_mem_nil, or_false] at hs
    rcases hs with rfl | rfl <;> decide
  obtain ⟨kek, hkek⟩ := (C37_kdf_fails_only_if_long P
    (P.x25519 r.epk pk1 ++ P.x25519 sk pk2) alg none none).1.2 ⟨hlen, by decide, by decide⟩
  have hkl := kek_length hP hkek
  have hw : ∃ ka iv x, wrapCek P r alg kek cek = .ok (ka, iv, x) ∧ 16 ≤ x.length := by
    simp only [Spec.supportedAlgs, List.mem_cons, List.not_mem_nil, or_false] at hs
    unfold wrapCek
    rcases hs with rfl | rfl
    · obtain ⟨x, hx⟩ := (ht kek r.iv12 [] cek hkl).2 r.iv12_len
      rw [if_pos rfl]
      simp only [fromSlice, hkl, r.iv12_len, if_true, Res.bind_ok, hx, Res.ofOpt_some]
      exact ⟨_, _, x, rfl, by rw [hP.gcm_len hx]; omega⟩
    · obtain ⟨x, hx⟩ := (ht kek r.iv24 [] cek hkl).1 r.iv24_len
      rw [if_neg (by decide), if_pos rfl]
      simp only [fromSlice, hkl, r.iv24_len, if_true, Res.bind_ok, hx, Res.ofOpt_some]
      exact ⟨_, _, x, rfl, by rw [hP.xc_len hx]; omega⟩
  obtain ⟨ka, iv, x, hx, hxl⟩ := hw
  have hgen : generateKekR P A dest sk (P.x25519 r.epk pk1) alg none (n + 1) = (n + 2, .ok kek) := by
    unfold generateKekR
    rw [bind_ok_at (sharedForR_answer h2 h2' hsk hl2), hkek]
    rfl
  have hsp : splitTag x = .ok (x.take (x.length - 16), x.drop (x.length - 16)) := by
    unfold splitTag
    rw [if_pos hxl]
  let jwk : Jwk := { Jwk.new with kid := some (didOfUrl dest), alg := ka }
  let jwk' := (jwk.addOtherHeader c!"iv" (b64Encode iv)).addOtherHeader c!"tag" (b64Encode (x.drop (x.length - 16)))
  refine ⟨⟨jwk'.ephemeral c!"OKP" c!"X25519" (b64Encode (P.x25519Pub r.epk)) none, b64Encode (x.take (x.length - 16))⟩, kek, ka, iv, x.take (x.length - 16), x.drop (x.length - 16), ?_,
    hkek, by rw [List.take_append_drop]; exact hx, rfl, rfl, rfl⟩
  · unfold encryptCekR
    simp only [hal, Res.ofOpt_some, step_ok_bind]
    rw [bind_ok_at (sharedForR_answer h1 h1' r.epk_len hl1), bind_ok_at hgen, hx, step_ok_bind]
    simp only [hsp, step_ok_bind]
    rfl

/-- What follows the entries succeeds with an envelope. -/
theorem seal_rest_envelope {P : Prims} (hP : Laws P) (ht : Spec.AeadTotal P) (r : Message.SealRand) {m : Message} {alg : Str}
    {a : CryptoAlg} (ha : CryptoAlg.ofStr alg = .ok a) {rs : List Recipient} (hl : m.flatJwe = true → rs.length = 1) :
    ∃ c tag, ({ m with recipients := some rs } : Message).encrypt r.ord r.iv (a.encryptor P) cek =
      .ok ((Spec.envelope m rs r.iv.1 c tag).text (r.ord.sub 2)) := by
  obtain ⟨x, hx, hxl⟩ := encryptor_total hP ht ha r.iv
    (utf8 ({ m with recipients := some rs }.text (r.ord.sub 1)))
    (utf8 (headerB64 (r.ord.sub 0) (Spec.publicHeader m)))
  refine ⟨x.take (x.length - 16), x.drop (x.length - 16), ?_⟩
  simp only [Message.encrypt, jweHeader_some, b64Decode_encode, Res.ofOpt_some, Res.bind_ok]
  rw [hx, Res.bind_ok]
  simp only [splitTag, hxl, if_true, Res.bind_ok, Message.jweOf]
  by_cases hfl : m.flatJwe = true
  · obtain ⟨y, rfl⟩ := List.length_eq_one_iff.1 (hl hfl)
    simp [hfl, Spec.envelope, Jwe.newFlat]
  · simp [hfl, Spec.envelope, Jwe.new]

/-- C144 fails for sealing: if the document of the recipient is replaced between the two calls, the key that wraps the
content key is derived from the key of the first document and from the key of the second.  The message is sealed without
error, and neither the holder of the first key nor the holder of the second nor anyone else gets it unless the cipher accepts
a key-encryption key that differs from this one. -/
theorem C144_replaced_violated (P : Prims) (hP : Laws P) (ht : Spec.AeadTotal P) (A : Answers) (r : Message.SealRand)
    (m : Message) (ssk pk1 pk2 : Bytes) (dest frm alg : Str) (d1 d2 : DidDoc) (hw : m.jwm.WF)
    (hfrom : m.didcomm.from = some frm) (hto : m.didcomm.to = [dest]) (hal : m.jwm.alg = some alg)
    (hs : alg ∈ Spec.supportedAlgs) (hsk : ssk.length = 32)
    (h1 : A 0 dest = some d1) (h1' : d1.keyFor c!"X25519" = some pk1) (hl1 : pk1.length = 32)
    (h2 : A 1 dest = some d2) (h2' : d2.keyFor c!"X25519" = some pk2) (hl2 : pk2.length = 32) :
    ∃ t k, Message.sealJweR P A r m ssk none 0 = (2, .ok t) ∧
      Spec.IsKek P alg (P.x25519 (r.perRec 0).epk pk1) (P.x25519 ssk pk2) k ∧
      ∀ sk spk ek vk o, sk.length = 32 → spk.length = 32 → KeyFor P frm ek spk →
        (∀ k', Spec.IsKek P alg (P.x25519 sk (P.x25519Pub (r.perRec 0).epk)) (P.x25519 sk spk) k' →
          Spec.Rejects P (r.perRec 0) k k') →
        Message.receive P o t (some sk) ek vk = .err (.generic "could not decrypt cek") := by
  obtain ⟨rc, kek, ka, iv, c, tag, hrc, hk, hwr, he, hepk, ho⟩ := encryptCekR_mixed (r := r.perRec 0) (m := m) hP ht hal hs hsk
    h1 h1' hl1 h2 h2' hl2
  obtain ⟨a, ha⟩ := ofStr_iff.2 hs
  obtain ⟨c', tag', henc⟩ := seal_rest_envelope hP ht r (m := m) ha (rs := [rc]) (fun _ => rfl)
  refine ⟨(Spec.envelope m [rc] r.iv.1 c' tag').text (r.ord.sub 2), kek, ?_, hk, ?_⟩
  · unfold Message.sealJweR
    rw [if_neg (by simp [hsk])]
    simp only [Message.sealKeys, step_ok_bind]
    rw [if_neg (by simp [hto]), if_neg (by simp [hto])]
    have hrs : Message.sealRecipientsR P A r.perRec m ssk cek 0
        (m.didcomm.to.zip (List.replicate m.didcomm.to.length none)) 0 = (2, .ok [rc]) := by
      rw [hto]
      show Message.sealRecipientsR P A r.perRec m ssk cek 0 [(dest, none)] 0 = _
      unfold Message.sealRecipientsR
      rw [bind_ok_at hrc]
      rfl
    rw [bind_ok_at hrs]
    have hcr : crypterOfHeader m.jwm = .ok a := by simp only [crypterOfHeader, hal, ha]
    simp only [hcr, step_ok_bind]
    rw [henc]
    rfl
  · intro sk spk ek vk o hsk' hpk hks hrej
    have hrw : ∀ x ∈ [rc], x.header.WF := by
      intro x hx
      obtain rfl := List.mem_singleton.1 hx
      unfold Jwk.WF
      rw [ho]
      intro k hk
      rw [HMap.get_insert, if_neg, HMap.get_insert, if_neg, HMap.get_empty]
      · rintro rfl; revert hk; decide
      · rintro rfl; revert hk; decide
    have halg := envelope_alg (rs := [rc]) (iv := r.iv.1) (c := c') (tag := tag') hal
    have hskid : (Spec.envelope m [rc] r.iv.1 c' tag').getSkid = some frm := by rw [envelope_skid, hfrom]
    have hj := jwe_ofText_text (F := P.f64) (r.ord.sub 2)
      (envelope_wf (m := m) (iv := r.iv.1) (c := c') (tag := tag') hw hrw)
    have hfk : Message.firstKey P (Spec.envelope m [rc] r.iv.1 c' tag') sk ek [rc] =
        .err (.generic "could not decrypt cek") := by
      refine firstKey_none fun x hx => ?_
      obtain rfl := List.mem_singleton.1 hx
      rw [decryptCek_of halg hskid he hepk ho (hP.pub_len _) hsk']
      simp only [generateKek, sharedFor_ok hks hsk' hpk, Res.bind_ok]
      cases hk' : concatKdf P (P.x25519 sk (P.x25519Pub (r.perRec 0).epk) ++ P.x25519 sk spk) alg none none with
      | panic => exact absurd hk' (C37_kdf_fails_only_if_long _ _ _ _ _).2
      | err e => exact ⟨e, rfl⟩
      | ok k' =>
        rw [Res.bind_ok]
        exact unwrap_rejects hwr (kek_length hP hk') (hrej k' hk')
    simp only [Message.receive, Message.decryptStep, messageType_envelope, Res.bind_ok, if_true, Res.ofOpt_some,
      Message.receiveJwe, hj, halg, senderKey_ok hskid hks, arrayRef32_of hsk', arrayRef32_of hpk, ha,
      Message.contentKey, envelope_recipients (m := m) (rs := [rc]) (iv := r.iv.1) (c := c') (tag := tag') (fun _ => rfl), hfk]
    rfl

/-! ## Examples -/

/-- A document with one X25519 key. -/
def docOf (sk : Bytes) : DidDoc := ⟨fun c => if c = c!"X25519" then some ((toy fun _ => none).x25519Pub sk) else none, fun _ => none⟩

/-- A resolver that knows the sender. -/
def senderDoc : Str → Option DidDoc := fun _ => some (docOf (exampleKey 3))

theorem stranger_closed (i : Nat) : Spec.EntryClosed (toy senderDoc) exampleRand exampleMessage (exampleKey 3)
    (some [some ((toy fun _ => none).x25519Pub (exampleKey 1)), some ((toy fun _ => none).x25519Pub (exampleKey 2))])
    otherKey ((toy fun _ => none).x25519Pub (exampleKey 3)) i := by
  intro dest alg rpk k k' hd halg hr hk hk'
  obtain rfl : c!"ECDH-1PU+XC20PKW" = alg := Option.some.inj halg
  match i with
  | 0 =>
    obtain rfl := keyFor_unique (.inl rfl) hr
    rw [← Res.ok.inj hk, ← Res.ok.inj hk']
    exact toy_rejects (by decide +kernel)
  | 1 =>
    obtain rfl := keyFor_unique (.inl rfl) hr
    rw [← Res.ok.inj hk, ← Res.ok.inj hk']
    exact toy_rejects (by decide +kernel)
  | n + 2 => cases hd

theorem sealed_for (k : Bytes) : ∃ t, exampleMessage.sealJwe (toy senderDoc) exampleRand (exampleKey 3)
    (some [some ((toy fun _ => none).x25519Pub (exampleKey 1)), some ((toy fun _ => none).x25519Pub k)]) = .ok t :=
  have hl := toy_laws senderDoc
  C16_seal_total (toy senderDoc) hl (toy_total _) exampleRand exampleMessage
    (exampleKey 3) (some [some ((toy fun _ => none).x25519Pub (exampleKey 1)),
        some ((toy fun _ => none).x25519Pub k)]) c!"ECDH-1PU+XC20PKW" (by decide) (by decide)
    (by intro l hl; rw [← Option.some.inj hl]; rfl) (by intro h; cases h) rfl (by decide) (by
      intro i dest hi
      match i with
      | 0 => exact ⟨_, hl.pub_len _, .inl rfl⟩
      | 1 => exact ⟨_, hl.pub_len _, .inl rfl⟩
      | n + 2 => cases hi)

/-- C144: a stranger asks three times for a message to two recipients. -/
example : ∃ t, Message.receiveR (toy senderDoc) (fun _ => senderDoc) HOrd.rev t (some otherKey) none none 0 =
    (3, .err (.generic "could not decrypt cek")) := by
  obtain ⟨t, ht⟩ := sealed_for (exampleKey 2)
  exact ⟨t, C144_stranger_violated _ (toy_laws senderDoc) exampleRand exampleMessage
    (exampleMessage_wf (toy senderDoc).f64).jwm _ _ t _ rfl ht otherKey _ none HOrd.rev (by decide)
    ((toy_laws senderDoc).pub_len _) (.inr ⟨rfl, _, rfl, rfl⟩) stranger_closed⟩

/-- C144: the second of two recipients asks three times. -/
example : ∃ t rs, Message.receiveR (toy senderDoc) (fun _ => senderDoc) HOrd.rev t (some otherKey) none none 0 =
    (3, .ok { exampleMessage with recipients := some rs }) := by
  obtain ⟨t, ht⟩ := sealed_for otherKey
  obtain ⟨rs, h⟩ := C144_recipient_violated _ (toy_laws senderDoc) exampleRand exampleMessage _ _ t _ (exampleMessage_wf _)
    (by decide) ⟨(by intro k h; cases h), (by intro k h; cases h)⟩ (by decide) rfl ht 1 c!"did:c:d" otherKey none HOrd.rev rfl
    (by decide) (.inl rfl) (.inr ⟨rfl, _, rfl, rfl⟩) (by
      intro n hn
      obtain rfl : n = 0 := by omega
      intro dest alg rpk k k' hd halg hr hk hk'
      obtain rfl : c!"ECDH-1PU+XC20PKW" = alg := Option.some.inj halg
      obtain rfl := keyFor_unique (.inl rfl) hr
      rw [← Res.ok.inj hk, ← Res.ok.inj hk']
      exact toy_rejects (by decide +kernel))
  exact ⟨t, rs, h⟩

/-- C144: sealing for two recipients asks four times. -/
example : ∃ t, Message.sealJweR (toy senderDoc) (fun _ => senderDoc) exampleRand exampleMessage (exampleKey 4) none 0 =
    (4, .ok t) := by
  have hl := toy_laws senderDoc
  obtain ⟨t, ht⟩ := C16_seal_total (toy senderDoc) hl (toy_total _) exampleRand exampleMessage
    (exampleKey 4) none c!"ECDH-1PU+XC20PKW" (by decide) (by decide)
    (by intro l hl; cases hl) (by intro h; cases h) rfl (by decide) (by
      intro i dest hi
      exact ⟨_, hl.pub_len (exampleKey 3), .inr ⟨rfl, _, rfl, rfl⟩⟩)
  have h := (C144_same (toy senderDoc) 0).2 exampleRand exampleMessage (exampleKey 4) none
  rw [ht] at h
  exact ⟨t, Prod.ext (C144_seal_violated _ _ _ _ _ 0 t h) h⟩

/-- The document of the recipient is replaced after the first call. -/
def rotating : Answers := fun n _ => some (docOf (if n = 0 then exampleKey 1 else otherKey))

/-- C144: the recipient's document is replaced while the message is sealed; neither the old key nor the new one opens it. -/
example : ∃ t, Message.sealJweR (toy senderDoc) rotating exampleRand
      { exampleMessage with didcomm := { exampleMessage.didcomm with to := [c!"did:c:d"] } } (exampleKey 3) none 0 = (2, .ok t) ∧
    ∀ sk ∈ [exampleKey 1, otherKey], Message.receive (toy senderDoc) HOrd.rev t (some sk) none none =
      .err (.generic "could not decrypt cek") := by
  have hl := toy_laws senderDoc
  obtain ⟨t, k, h1, h2, h3⟩ := C144_replaced_violated (toy senderDoc) hl (toy_total _) rotating exampleRand
    { exampleMessage with didcomm := { exampleMessage.didcomm with to := [c!"did:c:d"] } } (exampleKey 3)
    ((toy fun _ => none).x25519Pub (exampleKey 1)) ((toy fun _ => none).x25519Pub otherKey) c!"did:c:d" _
    c!"ECDH-1PU+XC20PKW" (docOf (exampleKey 1)) (docOf otherKey)
    (exampleMessage_wf (toy senderDoc).f64).jwm rfl rfl rfl (by decide) (by decide) rfl rfl (hl.pub_len _) rfl rfl (hl.pub_len _)
  refine ⟨t, h1, fun sk hsk => h3 sk ((toy fun _ => none).x25519Pub (exampleKey 3)) none none HOrd.rev ?_ (hl.pub_len _)
    (.inr ⟨rfl, _, rfl, rfl⟩) ?_⟩
  · simp only [List.mem_cons, List.not_mem_nil, or_false] at hsk
    rcases hsk with rfl | rfl <;> decide
  · intro k' hk'
    simp only [List.mem_cons, List.not_mem_nil, or_false] at hsk
    rcases hsk with rfl | rfl
    · rw [← Res.ok.inj h2, ← Res.ok.inj hk']
      exact toy_rejects (by decide +kernel)
    · rw [← Res.ok.inj h2, ← Res.ok.inj hk']
      exact toy_rejects (by decide +kernel)

/-- C144: the first answer is another document than the later ones, and the message arrives with the key of the later ones. -/
example : ∃ t rs, Message.receiveR (toy senderDoc) (fun n _ => some (docOf (if n = 0 then exampleKey 9 else exampleKey 3)))
    HOrd.rev t (some otherKey) none none 0 = (3, .ok { exampleMessage with recipients := some rs }) := by
  obtain ⟨t, ht⟩ := sealed_for otherKey
  obtain ⟨rs, h⟩ := C144_recipient_violated _ (toy_laws senderDoc) exampleRand exampleMessage _ _ t _ (exampleMessage_wf _)
    (by decide) ⟨(by intro k h; cases h), (by intro k h; cases h)⟩ (by decide) rfl ht 1 c!"did:c:d" otherKey none HOrd.rev rfl
    (by decide) (.inl rfl) (.inr ⟨rfl, _, rfl, rfl⟩) (by
      intro n hn
      obtain rfl : n = 0 := by omega
      intro dest alg rpk k k' hd halg hr hk hk'
      obtain rfl : c!"ECDH-1PU+XC20PKW" = alg := Option.some.inj halg
      obtain rfl := keyFor_unique (.inl rfl) hr
      rw [← Res.ok.inj hk, ← Res.ok.inj hk']
      exact toy_rejects (by decide +kernel))
  obtain ⟨pks, es, a, c, tag, alg, hp, hpl, hk, hto, hfl, hrs, hl, hal, ha, he, -, hT⟩ := seal_ok ht
  have hw := envelope_wf (m := exampleMessage) (iv := exampleRand.iv.1) (c := c) (tag := tag)
    (exampleMessage_wf (toy senderDoc).f64).jwm (sealRecipients_wf hrs)
  refine ⟨t, rs, Eq.trans ?_ h⟩
  have hpub := (toy_laws senderDoc).pub_len
  exact C144_first_violated (toy senderDoc) _ _ HOrd.rev t otherKey none 0 _ es _ (docOf (exampleKey 9)) (docOf (exampleKey 3)) _ _
    (by rw [hT]; exact jwe_ofText_text _ hw) (envelope_recipients hfl) envelope_skid (by decide) rfl rfl
    (Nat.le_of_eq (hpub _).symm) rfl rfl (Nat.le_of_eq (hpub _).symm) (by
      intro i hi
      funext s
      rw [if_neg (by omega)]
      rfl)

end Verif
