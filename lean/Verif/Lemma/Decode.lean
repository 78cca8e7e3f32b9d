import Verif.Lemma.Message

/-! # What the decoders return is well formed -/

namespace Verif

open Spec (NumsOk NumTok)

theorem optField_some {α : Type} {d : Json → Option α} {k : Str} {es : List (Str × Json)} {x : α}
    (h : optField d k es = some (some x)) : ∃ v, (k, v) ∈ es ∧ d v = some x := by
  unfold optField at h
  split at h
  · cases h
  · rename_i v hv
    refine ⟨v, mem_fieldVals.1 (by rw [hv]; simp), ?_⟩
    cases v <;> simp_all [decOpt]
  · cases h

theorem reqField_some {α : Type} {d : Json → Option α} {k : Str} {es : List (Str × Json)} {x : α}
    (h : reqField d k es = some x) : ∃ v, (k, v) ∈ es ∧ d v = some x := by
  unfold reqField at h
  split at h
  · rename_i v hv
    exact ⟨v, mem_fieldVals.1 (by rw [hv]; simp), h⟩
  · cases h

theorem decAll_mem {α : Type} {d : Json → Option α} {l : List Json} {r : List α}
    (h : decAll d l = some r) {x : α} (hx : x ∈ r) : ∃ j ∈ l, d j = some x := by
  induction l generalizing r with
  | nil => cases h; cases hx
  | cons j l ih =>
    simp only [decAll] at h
    split at h
    · rename_i a r' h1 h2
      cases h
      rcases List.mem_cons.1 hx with rfl | hx
      · exact ⟨j, by simp, h1⟩
      · obtain ⟨j', hj, hd⟩ := ih h2 hx
        exact ⟨j', List.mem_cons_of_mem _ hj, hd⟩
    · cases h

theorem decMembers_keys {α : Type} {d : Json → Option α} {es : List (Str × Json)}
    {r : List (Str × α)} (h : decMembers d es = some r) : r.map (·.1) = es.map (·.1) := by
  induction es generalizing r with
  | nil => cases h; rfl
  | cons p es ih =>
    obtain ⟨k, v⟩ := p
    simp only [decMembers] at h
    split at h
    · rename_i a r' h1 h2
      cases h
      simp [ih h2]
    · cases h

/-- Maps read from members not named in `ks` avoid `ks`. -/
theorem avoids_ofMembers {α : Type} {d : Json → Option α} {es : List (Str × Json)}
    {r : List (Str × α)} {ks : List Str} (h : decMembers d es = some r)
    (hes : ∀ p ∈ es, p.1 ∉ ks) : Avoids (HMap.ofList r) ks := by
  intro k hk
  rw [HMap.get_ofList]
  apply lastVal_notMem
  intro q hq e
  have hk' : q.1 ∈ r.map (·.1) := List.mem_map.2 ⟨q, hq, rfl⟩
  rw [decMembers_keys h] at hk'
  obtain ⟨p, hp, hpq⟩ := List.mem_map.1 hk'
  exact hes p hp (by rw [hpq, e]; exact hk)

theorem mem_rest {ks : List Str} {es : List (Str × Json)} {p : Str × Json}
    (h : p ∈ es.filter fun p => !ks.contains p.1) : p ∈ es ∧ p.1 ∉ ks := by
  rw [List.mem_filter] at h
  exact ⟨h.1, by simpa using h.2⟩

theorem decJwk_wf {j : Json} {k : Jwk} (h : decJwk j = some k) : k.WF := by
  simp only [decJwk, Option.bind_eq_bind, Option.bind_eq_some_iff, Option.pure_def,
    Option.some.injEq] at h
  obtain ⟨es, -, _, -, _, -, _, -, _, -, _, -, _, -, _, -, other, ho, rfl⟩ := h
  exact avoids_ofMembers ho (fun p hp => (mem_rest hp).2)

theorem decJwmE_wf {es : List (Str × Json)} {h : JwmHeader} (hd : decJwmE es = some h) : h.WF := by
  simp only [decJwmE, Option.bind_eq_bind, Option.bind_eq_some_iff, Option.pure_def,
    Option.some.injEq] at hd
  obtain ⟨_, -, _, -, _, -, _, -, _, -, _, -, jwk, hj, epk, he, _, -, rfl⟩ := hd
  constructor
  · rintro k rfl
    obtain ⟨v, -, hv⟩ := optField_some hj
    exact decJwk_wf hv
  · rintro k rfl
    obtain ⟨v, -, hv⟩ := optField_some he
    exact decJwk_wf hv

theorem decJwm_wf {j : Json} {h : JwmHeader} (hd : decJwm j = some h) : h.WF := by
  simp only [decJwm, Option.bind_eq_bind, Option.bind_eq_some_iff] at hd
  obtain ⟨es, -, h⟩ := hd
  exact decJwmE_wf h

theorem decRecipient_wf {j : Json} {r : Recipient} (h : decRecipient j = some r) : r.header.WF := by
  simp only [decRecipient, decRecipientE, Option.bind_eq_bind, Option.bind_eq_some_iff,
    Option.pure_def, Option.some.injEq] at h
  obtain ⟨es, -, hd, h1, _, -, rfl⟩ := h
  obtain ⟨v, -, hv⟩ := reqField_some h1
  exact decJwk_wf hv

theorem decRecipients_wf {es : List (Str × Json)} {x : Option (List Recipient)}
    (h : optField (decVec decRecipient) c!"recipients" es = some x) : RecipientsWF x := by
  rintro l rfl r hr
  obtain ⟨v, -, hv⟩ := optField_some h
  cases v <;> simp only [decVec, reduceCtorEq] at hv
  obtain ⟨j, -, hj⟩ := decAll_mem hv hr
  exact decRecipient_wf hj

theorem decDidcommE_avoids {es : List (Str × Json)} {h : DidCommHeader} {ks : List Str}
    (hd : decDidcommE es = some h) (hes : ∀ p ∈ es, p.1 ∉ ks) : Avoids h.other (didcommKeys ++ ks) := by
  simp only [decDidcommE, Option.bind_eq_bind, Option.bind_eq_some_iff, Option.pure_def,
    Option.some.injEq] at hd
  obtain ⟨_, -, _, -, _, -, _, -, _, -, _, -, _, -, _, -, _, -, _, -, other, ho, rfl⟩ := hd
  apply avoids_ofMembers ho
  intro p hp
  obtain ⟨h1, h2⟩ := mem_rest hp
  simp only [List.mem_append, not_or]
  exact ⟨h2, hes p h1⟩

/-- What every message read from a document has. -/
theorem decMessage_decoded {F : Str → Option Str} (hF : ∀ t u, F t = some u → NumTok u) {j : Json}
    {m : Message} (h : decMessage F j = some m) (hn : NumsOk j) :
    m.jwm.WF ∧ Avoids m.didcomm.other reservedKeys ∧ RecipientsWF m.recipients ∧ NumsOk m.body ∧ m.body.depth ≤ 126 ∧
      m.flatJwe = false ∧ m.flatJws = false ∧ (NumsStable F m.body → Canon F m.body) := by
  simp only [decMessage, Option.bind_eq_bind, Option.bind_eq_some_iff, Option.pure_def,
    Option.some.injEq] at h
  obtain ⟨es, hes, rs, hrs, body, hb, atts, -, -, -, jwm, hjwm, dc, hdc, rfl⟩ := h
  cases j <;> simp only [mapEntries, reduceCtorEq, Option.some.injEq] at hes
  subst hes
  obtain ⟨v, hv, hvb⟩ := reqField_some hb
  have hvn : NumsOk v := numsOkM_iff.1 hn _ hv
  unfold toValue at hvb
  split at hvb
  · rename_i hd
    refine ⟨decJwmE_wf hjwm, ?_, decRecipients_wf hrs, normJ_numsOk hF hvb hvn, ?_, rfl, rfl, normJ_canonical hF hvb⟩
    · refine (decDidcommE_avoids (ks := jwmKeys ++ messageKeys) hdc ?_).sub ?_
      · intro p hp
        obtain ⟨h1, h2⟩ := mem_rest hp
        obtain ⟨-, h3⟩ := mem_rest h1
        simp only [List.mem_append, not_or]
        exact ⟨h2, h3⟩
      · intro k hk
        simp only [reservedKeys, List.mem_append] at hk ⊢
        rcases hk with (hk | hk) | hk <;> simp [hk]
    · have := normJ_depth hF hvb
      show body.depth ≤ 126
      omega
  · cases hvb

theorem ofText_decoded {F : Str → Option Str} (hF : ∀ t u, F t = some u → NumTok u) {s : Str}
    {m : Message} (h : Message.ofText F s = some m) :
    m.jwm.WF ∧ Avoids m.didcomm.other reservedKeys ∧ RecipientsWF m.recipients ∧ NumsOk m.body ∧ m.body.depth ≤ 126 ∧
      m.flatJwe = false ∧ m.flatJws = false := by
  unfold Message.ofText at h
  split at h
  · rename_i j hj
    obtain ⟨h1, h2, h3, h4, h5, h6, h7, -⟩ := decMessage_decoded hF h (parseJson_numsOk hj)
    exact ⟨h1, h2, h3, h4, h5, h6, h7⟩
  · cases h

/-- Every message read from a document can be written and read again, provided it has a recipient and
its numbers are printed in a form that reads back as itself. -/
theorem decMessage_wf {F : Str → Option Str} (hF : ∀ t u, F t = some u → NumTok u) {j : Json}
    {m : Message} (h : decMessage F j = some m) (hn : NumsOk j) (hto : m.didcomm.to ≠ [])
    (hs : NumsStable F m.body) : m.WF F ∧ m.flatJwe = false ∧ m.flatJws = false := by
  obtain ⟨h1, h2, h3, h4, h5, h6, h7, h8⟩ := decMessage_decoded hF h hn
  exact ⟨⟨h1, h2, hto, h3, h8 hs, h4, h5⟩, h6, h7⟩

theorem ofText_wf {F : Str → Option Str} (hF : ∀ t u, F t = some u → NumTok u) {s : Str}
    {m : Message} (h : Message.ofText F s = some m) (hto : m.didcomm.to ≠ [])
    (hs : NumsStable F m.body) : m.WF F ∧ m.flatJwe = false ∧ m.flatJws = false := by
  unfold Message.ofText at h
  split at h
  · rename_i j hj
    exact decMessage_wf hF h (parseJson_numsOk hj) hto hs
  · cases h

/-- The envelope decoders. -/
theorem decHeaderB64_wf {j : Json} {h : JwmHeader} (hd : decHeaderB64 j = some (some h)) : h.WF := by
  cases j <;> simp only [decHeaderB64, Option.some.injEq, reduceCtorEq, Option.bind_eq_some_iff] at hd
  obtain ⟨b, -, hb⟩ := hd
  unfold decHeaderBytes at hb
  split at hb
  · rename_i j _
    cases j <;> simp only [decOpt, Option.map_eq_some_iff, Option.some.injEq, reduceCtorEq,
      exists_eq_right] at hb <;> exact decJwm_wf hb
  · cases hb

end Verif
