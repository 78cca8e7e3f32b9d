import Verif.Model.Envelope
import Verif.Lemma.Headers
import Verif.Lemma.Json

/-! # Written trees have a text and are not too deep -/

namespace Verif

open Spec (NumsOk NumsOkL NumsOkM)

/-- Depth at most `n`, numbers grammatical, and a `Value`. -/
def Nice (F : Str → Option Str) (n : Nat) (j : Json) : Prop :=
  j.depth ≤ n ∧ NumsOk j ∧ (normJ F j).isSome

section
variable {F : Str → Option Str}

theorem Nice.mono {m n : Nat} {j : Json} (h : Nice F m j) (hmn : m ≤ n) : Nice F n j :=
  ⟨Nat.le_trans h.1 hmn, h.2⟩

theorem nice_str (n : Nat) (s : Str) : Nice F n (.str s) :=
  ⟨by simp [Json.depth], trivial, by simp [normJ]⟩

theorem nice_null (n : Nat) : Nice F n .null := ⟨by simp [Json.depth], trivial, by simp [normJ]⟩

theorem natDec_head (k : Nat) : (natDec k).head? ≠ some '-' := by
  intro h
  have hd := natDec_digits k
  cases hk : natDec k with
  | nil => rw [hk] at h; cases h
  | cons c t =>
    rw [hk] at h hd
    simp only [List.head?_cons, Option.some.injEq] at h
    subst h
    simp [isDigit] at hd

theorem normNum_natDec {k : Nat} (h : k < 2 ^ 64) : normNum F (natDec k) = some (natDec k) := by
  unfold normNum
  split
  · next ds hd => exact absurd (by rw [hd]; rfl) (natDec_head k)
  · rw [tokNat_natDec h]; rfl

theorem nice_num (n : Nat) {k : Nat} (h : k < 2 ^ 64) : Nice F n (.num (natDec k)) :=
  ⟨by simp [Json.depth], numTok_natDec k, by simp [normJ, normNum_natDec h]⟩

theorem nice_u64 (n : Nat) (k : UInt64) : Nice F n (encU64 k) := nice_num n k.toNat_lt

theorem nice_u8 (n : Nat) (k : UInt8) : Nice F n (encU8 k) :=
  nice_num n (by have := k.toNat_lt; omega)

theorem nice_arr {n : Nat} {l : List Json} (h : ∀ j ∈ l, Nice F n j) : Nice F (n + 1) (.arr l) := by
  have : Json.depth.depthL l ≤ n ∧ NumsOkL l ∧ (normL F l).isSome := by
    induction l with
    | nil => simp [Json.depth.depthL, NumsOkL, normL]
    | cons j l ih =>
      have h1 := h j (by simp)
      have h2 := ih (fun x hx => h x (List.mem_cons_of_mem _ hx))
      refine ⟨Nat.max_le.2 ⟨h1.1, h2.1⟩, ⟨h1.2.1, h2.2.1⟩, ?_⟩
      obtain ⟨a, ha⟩ := Option.isSome_iff_exists.1 h1.2.2
      obtain ⟨b, hb⟩ := Option.isSome_iff_exists.1 h2.2.2
      simp [normL, ha, hb]
  refine ⟨by simp only [Json.depth]; omega, this.2.1, ?_⟩
  obtain ⟨b, hb⟩ := Option.isSome_iff_exists.1 this.2.2
  simp [normJ, hb]

/-- All members are nice. -/
def NiceM (F : Str → Option Str) (n : Nat) (es : List (Str × Json)) : Prop := ∀ p ∈ es, Nice F n p.2

theorem nice_obj {n : Nat} {es : List (Str × Json)} (h : NiceM F n es) : Nice F (n + 1) (.obj es) := by
  have : Json.depth.depthM es ≤ n ∧ NumsOkM es ∧ (normM F es).isSome := by
    induction es with
    | nil => simp [Json.depth.depthM, NumsOkM, normM]
    | cons p l ih =>
      obtain ⟨k, j⟩ := p
      have h1 := h (k, j) (by simp)
      have h2 := ih (fun x hx => h x (List.mem_cons_of_mem _ hx))
      refine ⟨Nat.max_le.2 ⟨h1.1, h2.1⟩, ⟨h1.2.1, h2.2.1⟩, ?_⟩
      obtain ⟨a, ha⟩ := Option.isSome_iff_exists.1 h1.2.2
      obtain ⟨b, hb⟩ := Option.isSome_iff_exists.1 h2.2.2
      simp only at ha
      simp [normM, ha, hb]
  refine ⟨by simp only [Json.depth]; omega, this.2.1, ?_⟩
  obtain ⟨b, hb⟩ := Option.isSome_iff_exists.1 this.2.2
  simp [normJ, hb]

theorem Nice.elim_obj {n : Nat} {es : List (Str × Json)} (h : Nice F (n + 1) (.obj es)) :
    NiceM F (n + 1) es := by
  obtain ⟨h1, h2, h3⟩ := h
  have hd : Json.depth.depthM es ≤ n := by simp only [Json.depth] at h1; omega
  intro p hp
  refine ⟨Nat.le_succ_of_le (depthM_le_iff.1 hd p hp), numsOkM_iff.1 h2 p hp, ?_⟩
  simp only [normJ, Option.isSome_map] at h3
  clear h1 h2 hd
  induction es with
  | nil => cases hp
  | cons q es ih =>
    obtain ⟨k, v⟩ := q
    simp only [normM] at h3
    split at h3
    · next v' es' hv hes =>
      rcases List.mem_cons.1 hp with rfl | hp
      · rw [hv]; rfl
      · exact ih hp (by rw [hes]; rfl)
    · cases h3

theorem niceM_nil (n : Nat) : NiceM F n [] := by intro p hp; cases hp

theorem niceM_cons {n : Nat} {k : Str} {v : Json} {es : List (Str × Json)} (h : Nice F n v)
    (hs : NiceM F n es) : NiceM F n ((k, v) :: es) := by
  intro p hp
  rcases List.mem_cons.1 hp with rfl | hp
  · exact h
  · exact hs p hp

theorem niceM_append {n : Nat} {a b : List (Str × Json)} (ha : NiceM F n a) (hb : NiceM F n b) :
    NiceM F n (a ++ b) := by
  intro p hp
  rcases List.mem_append.1 hp with h | h
  · exact ha p h
  · exact hb p h

theorem niceM_optE {α : Type} {n : Nat} {k : Str} {e : α → Json} {o : Option α}
    (h : ∀ a, o = some a → Nice F n (e a)) : NiceM F n (optE k e o) := by
  cases o with
  | none => exact niceM_nil n
  | some a => exact niceM_cons (h a rfl) (niceM_nil n)

theorem niceM_vecE {α : Type} {n : Nat} {k : Str} {e : List α → Json} {l : List α}
    (h : Nice F n (e l)) : NiceM F n (vecE k e l) := by
  cases l with
  | nil => exact niceM_nil n
  | cons a l => exact niceM_cons h (niceM_nil n)

theorem niceM_mapE {α : Type} {n : Nat} {o : HOrd} {e : α → Json} {m : HMap α}
    (h : ∀ a, Nice F n (e a)) : NiceM F n (mapE o e m) := by
  rintro ⟨k, v⟩ hp
  obtain ⟨a, -, rfl⟩ := mem_mapE.1 hp
  exact h a

theorem niceM_mono {m n : Nat} {es : List (Str × Json)} (h : NiceM F m es) (hmn : m ≤ n) :
    NiceM F n es := fun p hp => (h p hp).mono hmn

theorem nice_encOpt {α : Type} {n : Nat} {e : α → Json} {o : Option α}
    (h : ∀ a, o = some a → Nice F n (e a)) : Nice F n (encOpt e o) := by
  cases o with
  | none => exact nice_null n
  | some a => exact h a rfl

/-! ## Headers -/

theorem nice_strs (l : List Str) : Nice F 1 (.arr (l.map .str)) := by
  apply nice_arr
  intro j hj
  obtain ⟨s, -, rfl⟩ := List.mem_map.1 hj
  exact nice_str 0 s

theorem nice_epk (k : Epk) : Nice F 1 (encEpk k) :=
  nice_obj (niceM_cons (nice_str _ _) (niceM_cons (nice_str _ _) (niceM_cons (nice_str _ _)
    (niceM_optE fun _ _ => nice_str _ _))))

theorem nice_jwk (o : HOrd) (k : Jwk) : Nice F 2 (encJwk o k) := by
  have hs : ∀ (k : Str) (x : Option Str), NiceM F 1 (optE k .str x) :=
    fun _ _ => niceM_optE fun _ _ => nice_str _ _
  refine nice_obj (niceM_append (hs _ _) (niceM_append (hs _ _) (niceM_append (hs _ _)
    (niceM_cons (nice_arr ?_) (niceM_cons (nice_str _ _) (niceM_append (hs _ _)
      (niceM_append (niceM_optE fun a _ => nice_epk a) (niceM_mapE fun a => nice_str _ _))))))))
  intro j hj
  obtain ⟨s, -, rfl⟩ := List.mem_map.1 hj
  exact nice_str 0 _

theorem niceM_jwm (o : HOrd) (h : JwmHeader) : NiceM F 2 (jwmEntries o h) := by
  have hs : ∀ (k : Str) (x : Option Str), NiceM F 2 (optE k .str x) :=
    fun _ _ => niceM_optE fun _ _ => nice_str _ _
  exact niceM_cons (nice_str _ _) (niceM_append (hs _ _) (niceM_append (hs _ _)
    (niceM_append (hs _ _) (niceM_append (hs _ _) (niceM_append (hs _ _)
      (niceM_append (niceM_optE fun a _ => nice_jwk _ a) (niceM_append
        (niceM_optE fun a _ => nice_jwk _ a) (hs _ _))))))))

theorem nice_jwm (o : HOrd) (h : JwmHeader) : Nice F 3 (encJwm o h) := nice_obj (niceM_jwm o h)

theorem nice_prior (c : PriorClaims) : Nice F 1 (encPrior c) :=
  nice_obj (niceM_cons (nice_encOpt fun _ _ => nice_str _ _) (niceM_cons (nice_str _ _)
    (niceM_nil _)))

theorem nice_thread (o : HOrd) (t : Thread) : Nice F 2 (encThread o t) :=
  nice_obj (niceM_cons (nice_str _ _) (niceM_cons (nice_str _ _)
    (niceM_append (niceM_optE fun _ _ => nice_u64 _ _)
      (niceM_append (niceM_optE fun _ _ => nice_obj (niceM_mapE fun _ => nice_u64 _ _))
        (niceM_optE fun _ _ => nice_str _ _)))))

theorem niceM_didcomm (o : HOrd) (h : DidCommHeader) : NiceM F 2 (didcommEntries o h) := by
  have hs : ∀ (k : Str) (x : Option Str), NiceM F 2 (optE k .str x) :=
    fun _ _ => niceM_optE fun _ _ => nice_str _ _
  have hu : ∀ (k : Str) (x : Option UInt64), NiceM F 2 (optE k encU64 x) :=
    fun _ _ => niceM_optE fun _ _ => nice_u64 _ _
  exact niceM_cons (nice_str _ _) (niceM_append (hs _ _) (niceM_append (hs _ _)
    (niceM_cons (nice_str _ _) (niceM_append (niceM_vecE ((nice_strs _).mono (by omega)))
      (niceM_cons (nice_encOpt fun _ _ => nice_str _ _) (niceM_append (hu _ _) (niceM_append (hu _ _)
        (niceM_append (niceM_optE fun a _ => (nice_prior a).mono (by omega))
          (niceM_append (niceM_optE fun a _ => nice_thread _ a)
            (niceM_mapE fun _ => nice_str _ _))))))))))

/-! ## Messages -/

theorem nice_encList {α : Type} {n : Nat} {e : HOrd → α → Json} (h : ∀ o a, Nice F n (e o a))
    (o : HOrd) (l : List α) : ∀ j ∈ encList e o l, Nice F n j := by
  induction l generalizing o with
  | nil => intro j hj; cases hj
  | cons a l ih =>
    intro j hj
    rcases List.mem_cons.1 hj with rfl | hj
    · exact h _ a
    · exact ih _ j hj

theorem niceM_recipient (o : HOrd) (r : Recipient) : NiceM F 2 (recipientEntries o r) :=
  niceM_cons (nice_jwk _ _) (niceM_cons (nice_str _ _) (niceM_nil _))

theorem nice_recipient (o : HOrd) (r : Recipient) : Nice F 3 (encRecipient o r) :=
  nice_obj (niceM_recipient o r)

theorem nice_recipients (o : HOrd) (l : List Recipient) :
    Nice F 4 (.arr (encList encRecipient o l)) := nice_arr (nice_encList nice_recipient o l)

theorem nice_attachmentData (d : AttachmentData) : Nice F 2 (encAttachmentData d) := by
  have hs : ∀ (k : Str) (x : Option Str), NiceM F 1 (optE k .str x) :=
    fun _ _ => niceM_optE fun _ _ => nice_str _ _
  exact nice_obj (niceM_append (hs _ _) (niceM_append (hs _ _)
    (niceM_append (niceM_vecE (nice_strs _)) (niceM_append (hs _ _) (hs _ _)))))

theorem nice_attachment (a : Attachment) : Nice F 3 (encAttachment a) := by
  have hs : ∀ (k : Str) (x : Option Str), NiceM F 2 (optE k .str x) :=
    fun _ _ => niceM_optE fun _ _ => nice_str _ _
  exact nice_obj (niceM_append (hs _ _) (niceM_append (hs _ _) (niceM_append (hs _ _)
    (niceM_append (hs _ _) (niceM_append (hs _ _) (niceM_append (hs _ _)
      (niceM_append (niceM_optE fun _ _ => nice_u64 _ _)
        (niceM_cons (nice_attachmentData _) (niceM_nil _)))))))))

theorem nice_attachments (l : List Attachment) : Nice F 4 (.arr (l.map encAttachment)) := by
  apply nice_arr
  intro j hj
  obtain ⟨s, -, rfl⟩ := List.mem_map.1 hj
  exact nice_attachment s

theorem nice_canon {j : Json} (hc : Canon F j) (hn : NumsOk j) : Nice F j.depth j :=
  ⟨Nat.le_refl _, hn, by rw [normJ_canon hc]; rfl⟩

theorem niceM_message (o : HOrd) {m : Message} {n : Nat} (h4 : 4 ≤ n) (hb : Nice F n m.body) :
    NiceM F n (jwmEntries (o.sub 0) m.jwm ++ (didcommEntries (o.sub 1) m.didcomm ++
    (optE c!"recipients" (fun l => .arr (encList encRecipient (o.sub 2) l)) m.recipients ++
      ((c!"body", m.body) ::
        vecE c!"attachments" (fun l => .arr (l.map encAttachment)) m.attachments)))) :=
  niceM_append (niceM_mono (niceM_jwm _ _) (by omega)) (niceM_append
    (niceM_mono (niceM_didcomm _ _) (by omega)) (niceM_append
      (niceM_optE fun _ _ => (nice_recipients _ _).mono h4) (niceM_cons hb
        (niceM_vecE ((nice_attachments _).mono h4)))))

theorem nice_message (o : HOrd) {m : Message} {n : Nat} (h4 : 4 ≤ n) (hb : Nice F n m.body) :
    Nice F (n + 1) (encMessage o m) := nice_obj (niceM_message o h4 hb)

/-! ## Envelopes -/

theorem nice_jwe (o : HOrd) (j : Jwe) : Nice F 5 (encJwe o j) := by
  refine nice_obj (niceM_append (niceM_optE fun _ _ => nice_str _ _) (niceM_append
    (niceM_optE fun _ _ => (nice_jwm _ _).mono (by omega)) (niceM_append ?_ (niceM_append
      (niceM_optE fun _ _ => nice_recipients _ _) (niceM_cons (nice_str _ _)
        (niceM_cons (nice_str _ _) (niceM_optE fun _ _ => nice_str _ _)))))))
  cases j.recipient with
  | none => exact niceM_nil _
  | some r => exact niceM_mono (niceM_recipient _ r) (by omega)

theorem niceM_signature (o : HOrd) (s : Signature) : NiceM F 3 (signatureEntries o s) :=
  niceM_append (niceM_optE fun _ _ => nice_str _ _) (niceM_append
    (niceM_optE fun _ _ => nice_jwm _ _) (niceM_cons (nice_str _ _) (niceM_nil _)))

theorem nice_jws (o : HOrd) (j : Jws) : Nice F 6 (encJws o j) := by
  refine nice_obj (niceM_cons (nice_str _ _) (niceM_append ?_ (niceM_optE fun _ _ =>
    nice_arr (nice_encList (fun o a => nice_obj (niceM_signature o a)) _ _))))
  cases j.signature with
  | none => exact niceM_nil _
  | some r => exact niceM_mono (niceM_signature _ r) (by omega)

theorem nice_mediated (m : Mediated) : Nice F 2 (encMediated m) := by
  refine nice_obj (niceM_cons (nice_str _ _) (niceM_cons (nice_arr ?_) (niceM_nil _)))
  intro j hj
  obtain ⟨s, -, rfl⟩ := List.mem_map.1 hj
  exact nice_u8 _ s

/-! ## Consequences -/

theorem toValue_nice {n used : Nat} {j : Json} (h : Nice F n j) (hn : used + n ≤ 127) :
    (toValue F used j).isSome := by
  unfold toValue
  rw [if_pos (by have := h.1; omega)]
  exact h.2.2

theorem buffered_nice {n : Nat} {es : List (Str × Json)} (h : NiceM F n es) (hn : n ≤ 126) :
    buffered F es = true := by
  unfold buffered
  rw [List.all_eq_true]
  intro p hp
  exact toValue_nice (h p hp) (by omega)

theorem buffered_filter {n : Nat} {es : List (Str × Json)} (h : NiceM F n es) (hn : n ≤ 126)
    (q : Str × Json → Bool) : buffered F (es.filter q) = true :=
  buffered_nice (fun p hp => h p (List.mem_filter.1 hp).1) hn

end

end Verif
