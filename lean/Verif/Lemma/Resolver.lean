import Verif.Model.Resolver
import Verif.Lemma.Seal

/-!
# Computations that ask the resolver
-/

namespace Verif

namespace Asks

/-- The result does not depend on the number of calls before. -/
def Same {α : Type} (x : Asks α) (r : Res α) : Prop := ∀ n, (x n).2 = r

/-- At most `k` calls are made. -/
def AtMost {α : Type} (k : Nat) (x : Asks α) : Prop := ∀ n, n ≤ (x n).1 ∧ (x n).1 ≤ n + k

/-- Exactly `k` calls are made if there is a result. -/
def Exact {α : Type} (k : Nat) (x : Asks α) : Prop := ∀ n a, (x n).2 = .ok a → (x n).1 = n + k

theorem bind_eq {α β : Type} (x : Asks α) (f : α → Asks β) (n : Nat) : (x >>= f) n =
    match x n with
    | (k, .ok a) => f a k
    | (k, .err e) => (k, .err e)
    | (k, .panic) => (k, .panic) := rfl

@[simp] theorem step_ok_bind {α β : Type} (a : α) (f : α → Asks β) : (step (.ok a) >>= f) = f a := rfl

theorem step_bind_step {α β : Type} (r : Res α) (f : α → Res β) :
    (step r >>= fun a => step (f a)) = step (r >>= f) := by
  cases r <;> rfl

theorem pure_step {α : Type} (a : α) : (pure a : Asks α) = step (.ok a) := rfl

theorem same_step {α : Type} (r : Res α) : Same (step r) r := fun _ => rfl

theorem same_bind {α β : Type} {x : Asks α} {r : Res α} {f : α → Asks β} {g : α → Res β} (hx : Same x r)
    (hf : ∀ a, Same (f a) (g a)) : Same (x >>= f) (r >>= g) := by
  intro n
  have h := hx n
  rw [bind_eq]
  cases hn : x n with
  | mk k y =>
    rw [hn] at h
    obtain rfl : y = r := h
    cases y with
    | ok a => exact hf a k
    | err e => rfl
    | panic => rfl

theorem atMost_step {α : Type} (r : Res α) : AtMost 0 (step r) := fun n => ⟨Nat.le_refl n, Nat.le_refl n⟩

theorem atMost_mono {α : Type} {k l : Nat} {x : Asks α} (h : AtMost k x) (hkl : k ≤ l) : AtMost l x :=
  fun n => ⟨(h n).1, by have := (h n).2; omega⟩

theorem atMost_bind {α β : Type} {k l : Nat} {x : Asks α} {f : α → Asks β} (hx : AtMost k x)
    (hf : ∀ a, AtMost l (f a)) : AtMost (k + l) (x >>= f) := by
  intro n
  have h := hx n
  rw [bind_eq]
  cases hn : x n with
  | mk j y =>
    rw [hn] at h
    cases y with
    | ok a => have := hf a j; exact ⟨by have := h.1; simp only at *; omega, by have := h.2; simp only at *; omega⟩
    | err e => exact ⟨h.1, by have := h.2; simp only at *; omega⟩
    | panic => exact ⟨h.1, by have := h.2; simp only at *; omega⟩

theorem atMost_bind_step {α β : Type} {l : Nat} {r : Res α} {f : α → Asks β} (hf : ∀ a, AtMost l (f a)) :
    AtMost l (step r >>= f) :=
  atMost_mono (atMost_bind (atMost_step r) hf) (by omega)

theorem exact_step {α : Type} (r : Res α) : Exact 0 (step r) := fun _ _ _ => rfl

theorem exact_bind {α β : Type} {k l : Nat} {x : Asks α} {f : α → Asks β} (hx : Exact k x)
    (hf : ∀ a, Exact l (f a)) : Exact (k + l) (x >>= f) := by
  intro n b
  have h := hx n
  rw [bind_eq]
  cases hn : x n with
  | mk j y =>
    rw [hn] at h
    cases y with
    | ok a =>
      intro hb
      have h1 := h a rfl
      have h2 := hf a j b hb
      simp only at *
      omega
    | err e => intro hb; cases hb
    | panic => intro hb; cases hb

theorem exact_bind_step {α β : Type} {l : Nat} {r : Res α} {f : α → Asks β} (hf : ∀ a, Exact l (f a)) :
    Exact l (step r >>= f) := by
  have := exact_bind (exact_step r) hf
  rwa [Nat.zero_add] at this

end Asks

open Asks

/-! ## Answers that do not change -/

theorem publicKeyForR_same (P : Prims) (did : Str) (key : Option Bytes) :
    Same (publicKeyForR (fun _ => P.resolve) did key) (publicKeyFor P did key) := by
  cases key with
  | some k => exact same_step _
  | none =>
    intro n
    simp only [publicKeyForR, publicKeyFor, bind_eq, Asks.resolve, step]
    cases P.resolve did with
    | none => rfl
    | some d => rfl

theorem sharedForR_same (P : Prims) (sk : Bytes) (did : Str) (key : Option Bytes) :
    Same (sharedForR P (fun _ => P.resolve) sk did key) (sharedFor P sk did key) :=
  same_bind (publicKeyForR_same P did key) fun _ => same_bind (same_step _) fun _ => same_bind (same_step _) fun _ =>
    same_step _

theorem generateKekR_same (P : Prims) (did : Str) (sk ze : Bytes) (alg : Str) (key : Option Bytes) :
    Same (generateKekR P (fun _ => P.resolve) did sk ze alg key) (generateKek P did sk ze alg key) :=
  same_bind (sharedForR_same P sk did key) fun _ => same_step _

theorem encryptCekR_same (P : Prims) (r : RecRand) (m : Message) (sk : Bytes) (dest : Str) (cek : Bytes)
    (key : Option Bytes) :
    Same (encryptCekR P (fun _ => P.resolve) r m sk dest cek key) (encryptCek P r m sk dest cek key) :=
  same_bind (same_step _) fun _ => same_bind (sharedForR_same P _ _ _) fun _ =>
    same_bind (generateKekR_same P _ _ _ _ _) fun _ => same_bind (same_step _) fun _ =>
      same_bind (same_step _) fun _ => same_step _

theorem decryptCekR_same (P : Prims) (j : Jwe) (sk : Bytes) (r : Recipient) (key : Option Bytes) :
    Same (decryptCekR P (fun _ => P.resolve) j sk r key) (decryptCek P j sk r key) :=
  same_bind (same_step _) fun _ => same_bind (same_step _) fun _ => same_bind (same_step _) fun _ =>
    same_bind (same_step _) fun _ => same_bind (same_step _) fun _ => same_bind (same_step _) fun _ =>
      same_bind (generateKekR_same P _ _ _ _ _) fun _ => same_bind (same_step _) fun _ =>
        same_bind (same_step _) fun _ => same_bind (same_step _) fun _ => same_bind (same_step _) fun _ =>
          same_bind (same_step _) fun _ => same_step _

namespace Message

theorem senderKeyR_same (P : Prims) (j : Jwe) (key : Option Bytes) :
    Same (senderKeyR (fun _ => P.resolve) j key) (senderKey P j key) := by
  cases key with
  | some k => exact same_step _
  | none =>
    refine same_bind (same_step _) fun s n => ?_
    simp only [bind_eq, Asks.resolve, step]
    cases P.resolve s with
    | none => rfl
    | some d => rfl

theorem firstKeyR_same (P : Prims) (j : Jwe) (sk : Bytes) (key : Option Bytes) (l : List Recipient) :
    Same (firstKeyR P (fun _ => P.resolve) j sk key l) (firstKey P j sk key l) := by
  induction l with
  | nil => intro n; rfl
  | cons r l ih =>
    intro n
    have h := decryptCekR_same P j sk r key n
    unfold firstKeyR firstKey
    cases hn : decryptCekR P (fun _ => P.resolve) j sk r key n with
    | mk k y =>
      rw [hn] at h
      rw [← show y = _ from h]
      cases y with
      | ok a => rfl
      | err e => exact ih k
      | panic => rfl

theorem contentKeyR_same (P : Prims) (j : Jwe) (sk : Bytes) (key : Option Bytes) (plain : Bytes) :
    Same (contentKeyR P (fun _ => P.resolve) j sk key plain) (contentKey P j sk key plain) := by
  unfold contentKeyR contentKey
  cases recipientsOf j with
  | some l => exact firstKeyR_same P j sk key l
  | none => exact same_step _

theorem receiveJweR_same (P : Prims) (o : HOrd) (t : Str) (sk : Bytes) (key : Option Bytes) :
    Same (receiveJweR P (fun _ => P.resolve) o t sk key) (receiveJwe P o t sk key) :=
  same_bind (same_step _) fun _ => same_bind (same_step _) fun _ => same_bind (senderKeyR_same P _ _) fun _ =>
    same_bind (same_step _) fun _ => same_bind (same_step _) fun _ => same_bind (same_step _) fun _ =>
      same_bind (contentKeyR_same P _ _ _ _) fun _ => same_bind (same_step _) fun _ => same_step _

theorem decryptStepR_same (P : Prims) (o : HOrd) (t : Str) (sk key : Option Bytes) :
    Same (decryptStepR P (fun _ => P.resolve) o t sk key) (decryptStep P o t sk key) := by
  refine same_bind (same_step _) fun x => ?_
  split
  · exact same_bind (same_step _) fun _ => receiveJweR_same P _ _ _ _
  · exact same_step _

theorem receiveR_same (P : Prims) (o : HOrd) (t : Str) (sk ek vk : Option Bytes) :
    Same (receiveR P (fun _ => P.resolve) o t sk ek vk) (receive P o t sk ek vk) :=
  same_bind (decryptStepR_same P _ _ _ _) fun _ => same_bind (same_step _) fun _ => same_step _

theorem sealRecipientsR_same (P : Prims) (r : Nat → RecRand) (m : Message) (sk cek : Bytes) (i : Nat)
    (l : List (Str × Option Bytes)) :
    Same (sealRecipientsR P (fun _ => P.resolve) r m sk cek i l) (sealRecipients P r m sk cek i l) := by
  induction l generalizing i with
  | nil => exact same_step _
  | cons p l ih =>
    exact same_bind (encryptCekR_same P _ _ _ _ _ _) fun _ => same_bind (ih _) fun _ => same_step _

theorem sealJweR_same (P : Prims) (r : SealRand) (m : Message) (sk : Bytes) (keys : Option (List (Option Bytes))) :
    Same (sealJweR P (fun _ => P.resolve) r m sk keys) (m.sealJwe P r sk keys) := by
  unfold sealJweR sealJwe
  split
  · exact same_step _
  refine same_bind (same_step _) fun pks => ?_
  split
  · exact same_step _
  split
  · exact same_step _
  exact same_bind (sealRecipientsR_same P _ _ _ _ _ _) fun _ => same_bind (same_step _) fun _ => same_step _

end Message

/-! ## How often the resolver is asked -/

theorem publicKeyForR_none {A : Answers} {did : Str} (n : Nat) :
    (publicKeyForR A did none n).1 = n + 1 := by
  simp only [publicKeyForR, bind_eq, Asks.resolve, step]
  cases A n did <;> rfl

theorem publicKeyForR_atMost (A : Answers) (did : Str) (key : Option Bytes) :
    AtMost (if key = none then 1 else 0) (publicKeyForR A did key) := by
  cases key with
  | some k => exact atMost_step _
  | none => intro n; rw [publicKeyForR_none]; simp

theorem sharedForR_atMost (P : Prims) (A : Answers) (sk : Bytes) (did : Str) (key : Option Bytes) :
    AtMost (if key = none then 1 else 0) (sharedForR P A sk did key) :=
  atMost_bind (publicKeyForR_atMost A did key) fun _ => atMost_bind_step fun _ => atMost_bind_step fun _ =>
    atMost_step _

theorem generateKekR_atMost (P : Prims) (A : Answers) (did : Str) (sk ze : Bytes) (alg : Str) (key : Option Bytes) :
    AtMost (if key = none then 1 else 0) (generateKekR P A did sk ze alg key) :=
  atMost_bind (sharedForR_atMost P A sk did key) fun _ => atMost_step _

theorem decryptCekR_atMost (P : Prims) (A : Answers) (j : Jwe) (sk : Bytes) (r : Recipient) (key : Option Bytes) :
    AtMost (if key = none then 1 else 0) (decryptCekR P A j sk r key) :=
  atMost_bind_step fun _ => atMost_bind_step fun _ => atMost_bind_step fun _ => atMost_bind_step fun _ =>
    atMost_bind_step fun _ => atMost_bind_step fun _ => atMost_bind (generateKekR_atMost P A _ _ _ _ _) fun _ =>
      atMost_bind_step fun _ => atMost_bind_step fun _ => atMost_bind_step fun _ => atMost_bind_step fun _ =>
        atMost_bind_step fun _ => atMost_step _

namespace Message

theorem senderKeyR_atMost (A : Answers) (j : Jwe) (key : Option Bytes) :
    AtMost (if key = none then 1 else 0) (senderKeyR A j key) := by
  cases key with
  | some k => exact atMost_step _
  | none =>
    refine atMost_bind_step fun s n => ?_
    simp only [bind_eq, Asks.resolve, step]
    cases A n s with
    | none => simp
    | some d => cases hk : d.keyFor c!"X25519" <;> simp [Res.ofOpt, hk]

theorem firstKeyR_atMost (P : Prims) (A : Answers) (j : Jwe) (sk : Bytes) (key : Option Bytes) (l : List Recipient) :
    AtMost (if key = none then l.length else 0) (firstKeyR P A j sk key l) := by
  induction l with
  | nil => intro n; exact ⟨Nat.le_refl n, Nat.le_add_right n _⟩
  | cons r l ih =>
    intro n
    have h := decryptCekR_atMost P A j sk r key n
    unfold firstKeyR
    cases hn : decryptCekR P A j sk r key n with
    | mk k y =>
      rw [hn] at h
      have ih := ih k
      cases y with
      | ok a => simp only [List.length_cons] at *; split at h <;> simp_all <;> omega
      | err e => simp only [List.length_cons] at *; split at h <;> simp_all <;> omega
      | panic => simp only [List.length_cons] at *; split at h <;> simp_all <;> omega

end Message

namespace Asks

theorem snd_step_bind {α β : Type} {r : Res α} {f : α → Asks β} {g : α → Res β} {n : Nat}
    (h : ∀ a, (f a n).2 = g a) : ((step r >>= f) n).2 = (r >>= g) := by
  cases r with
  | ok a => exact h a
  | err e => rfl
  | panic => rfl

theorem snd_bind_same {α β : Type} {x : Asks α} {f : α → Asks β} {g : α → Res β} {n : Nat}
    (h : ∀ a, Same (f a) (g a)) : ((x >>= f) n).2 = ((x n).2 >>= g) := by
  rw [bind_eq]
  cases x n with
  | mk k y =>
    cases y with
    | ok a => exact h a k
    | err e => rfl
    | panic => rfl

theorem fst_bind_quiet {α β : Type} {x : Asks α} {f : α → Asks β} {n : Nat} (h : ∀ a, AtMost 0 (f a)) :
    ((x >>= f) n).1 = (x n).1 := by
  rw [bind_eq]
  cases x n with
  | mk k y =>
    cases y with
    | ok a => have := h a k; simp only at *; omega
    | err e => rfl
    | panic => rfl

end Asks

theorem publicKeyForR_call (P : Prims) (A : Answers) (did : Str) (key : Option Bytes) (n : Nat) :
    (publicKeyForR A did key n).2 = publicKeyFor { P with resolve := A n } did key := by
  cases key with
  | some k => rfl
  | none =>
    simp only [publicKeyForR, publicKeyFor, bind_eq, Asks.resolve, step]
    cases A n did <;> rfl

theorem sharedForR_call (P : Prims) (A : Answers) (sk : Bytes) (did : Str) (key : Option Bytes) (n : Nat) :
    (sharedForR P A sk did key n).2 = sharedFor { P with resolve := A n } sk did key := by
  unfold sharedForR sharedFor
  rw [← publicKeyForR_call P A did key n]
  exact snd_bind_same fun _ => same_bind (same_step _) fun _ => same_bind (same_step _) fun _ => same_step _

theorem generateKekR_call (P : Prims) (A : Answers) (did : Str) (sk ze : Bytes) (alg : Str) (key : Option Bytes) (n : Nat) :
    (generateKekR P A did sk ze alg key n).2 = generateKek { P with resolve := A n } did sk ze alg key := by
  unfold generateKekR generateKek
  rw [← sharedForR_call P A sk did key n]
  exact snd_bind_same fun _ => same_step _

/-- One entry is opened with one answer of the resolver. -/
theorem decryptCekR_call (P : Prims) (A : Answers) (j : Jwe) (sk : Bytes) (r : Recipient) (key : Option Bytes) (n : Nat) :
    (decryptCekR P A j sk r key n).2 = decryptCek { P with resolve := A n } j sk r key := by
  refine snd_step_bind fun _ => snd_step_bind fun _ => snd_step_bind fun _ => snd_step_bind fun _ =>
    snd_step_bind fun _ => snd_step_bind fun _ => ?_
  rw [← generateKekR_call P A _ sk _ _ key n]
  exact snd_bind_same fun _ => same_bind (same_step _) fun _ =>
        same_bind (same_step _) fun _ => same_bind (same_step _) fun _ => same_bind (same_step _) fun _ =>
          same_bind (same_step _) fun _ => same_step _

theorem sharedForR_none (P : Prims) (A : Answers) (sk : Bytes) (did : Str) (n : Nat) :
    (sharedForR P A sk did none n).1 = n + 1 :=
  (fst_bind_quiet fun _ => atMost_bind_step fun _ => atMost_bind_step fun _ => atMost_step _).trans
    (publicKeyForR_none n)

theorem generateKekR_none (P : Prims) (A : Answers) (did : Str) (sk ze : Bytes) (alg : Str) (n : Nat) :
    (generateKekR P A did sk ze alg none n).1 = n + 1 :=
  (fst_bind_quiet fun _ => atMost_step _).trans (sharedForR_none P A sk did n)

/-- An entry whose ephemeral key can be read gets to the resolver, which is asked once. -/
theorem decryptCekR_reach {P : Prims} {A : Answers} {j : Jwe} {sk : Bytes} {r : Recipient} {alg frm : Str}
    {kty crv x : Str} {y : Option Str} {pub : Bytes} (ha : j.getAlg = some alg) (hs : j.getSkid = some frm)
    (he : r.header.epk = some ⟨kty, crv, x, y⟩)
    (hd : b64Decode x = some pub) (hl : pub.length = 32) (hsk : sk.length = 32) (n : Nat) :
    (decryptCekR P A j sk r none n).1 = n + 1 := by
  unfold decryptCekR
  rw [ha, hs, he]
  simp only [Res.ofOpt_some, step_ok_bind, hd, hl, if_true, arrayRef32, hsk, Nat.le_refl]
  exact (fst_bind_quiet fun _ => atMost_bind_step fun _ => atMost_bind_step fun _ => atMost_bind_step fun _ =>
    atMost_bind_step fun _ => atMost_bind_step fun _ => atMost_step _).trans (generateKekR_none P A _ _ _ _ n)

theorem sharedForR_exact (P : Prims) (A : Answers) (sk : Bytes) (did : Str) : Exact 1 (sharedForR P A sk did none) :=
  fun n _ _ => sharedForR_none P A sk did n

theorem encryptCekR_exact (P : Prims) (A : Answers) (r : RecRand) (m : Message) (sk : Bytes) (dest : Str) (cek : Bytes) :
    Exact 2 (encryptCekR P A r m sk dest cek none) :=
  exact_bind_step fun _ => exact_bind (k := 1) (l := 1) (sharedForR_exact P A _ _) fun _ =>
    exact_bind (k := 1) (l := 0) (fun n _ _ => generateKekR_none P A _ _ _ _ n) fun _ => exact_bind_step fun _ =>
      exact_bind_step fun _ => exact_step _

theorem sealRecipientsR_exact (P : Prims) (A : Answers) (r : Nat → RecRand) (m : Message) (sk cek : Bytes) (i : Nat)
    (l : List (Str × Option Bytes)) (hl : ∀ p ∈ l, p.2 = none) :
    Exact (2 * l.length) (Message.sealRecipientsR P A r m sk cek i l) := by
  induction l generalizing i with
  | nil => exact exact_step _
  | cons p l ih =>
    obtain ⟨d, k⟩ := p
    obtain rfl : k = none := hl (d, k) (by simp)
    have := exact_bind (encryptCekR_exact P A (r i) m sk d cek) fun (x : Recipient) =>
      exact_bind (ih (i + 1) fun p hp => hl p (by simp [hp])) fun (xs : List Recipient) => exact_step (.ok (x :: xs))
    rw [show 2 * (((d, none) :: l : List (Str × Option Bytes)).length) = 2 + (2 * l.length + 0) by simp; omega]
    exact this

theorem encryptCekR_atMost (P : Prims) (A : Answers) (r : RecRand) (m : Message) (sk : Bytes) (dest : Str) (cek : Bytes)
    (k : Bytes) : AtMost 0 (encryptCekR P A r m sk dest cek (some k)) :=
  atMost_bind_step fun _ => atMost_bind (k := 0) (l := 0) (sharedForR_atMost P A _ _ (some k)) fun _ =>
    atMost_bind (k := 0) (l := 0) (generateKekR_atMost P A _ _ _ _ (some k)) fun _ => atMost_bind_step fun _ =>
      atMost_bind_step fun _ => atMost_step _

theorem sealRecipientsR_atMost (P : Prims) (A : Answers) (r : Nat → RecRand) (m : Message) (sk cek : Bytes) (i : Nat)
    (l : List (Str × Option Bytes)) (hl : ∀ p ∈ l, p.2 ≠ none) :
    AtMost 0 (Message.sealRecipientsR P A r m sk cek i l) := by
  induction l generalizing i with
  | nil => exact atMost_step _
  | cons p l ih =>
    obtain ⟨d, k⟩ := p
    obtain ⟨k, rfl⟩ := Option.ne_none_iff_exists'.1 (hl (d, k) (by simp))
    exact atMost_bind (k := 0) (l := 0) (encryptCekR_atMost P A _ _ _ _ _ k) fun _ =>
      atMost_bind (k := 0) (l := 0) (ih (i + 1) fun p hp => hl p (by simp [hp])) fun _ => atMost_step _

end Verif
