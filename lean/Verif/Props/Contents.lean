import Verif.Spec.Contents
import Verif.Props.Schema

/-!
# What is taken from a document

C96: the values of a message, an encrypted envelope and a signed document are those of the members of the
document.
-/

namespace Verif

open Spec

/-- What the decoder returns is described by the relation. -/
def Gives {α : Type} (d : Json → Option α) (R : Json → α → Prop) : Prop := ∀ j a, d j = some a → R j a

theorem gives_str : Gives decStr StrIs := by
  intro j a h
  cases j <;> cases h
  rfl

theorem gives_nat : Gives decU64 NatIs := by
  intro j a h
  cases j <;> simp only [decU64, reduceCtorEq, Option.map_eq_some_iff] at h
  rename_i t
  obtain ⟨n, hn, rfl⟩ := h
  obtain ⟨-, -, h3, rfl⟩ := tokNat_iff.1 hn
  exact ⟨t, rfl, by simp only [UInt64.toNat_ofNat']; omega⟩

theorem gives_name {α : Type} {f : Str → Option α} {label : α → Str} (h : ∀ s a, f s = some a → s = label a) :
    Gives (decLabel f) (NameIs label) := by
  intro j a ha
  unfold decLabel at ha
  split at ha
  · exact .inl (by rw [h _ _ ha])
  · exact .inr (by rw [h _ _ ha])
  · cases ha

theorem gives_list {α : Type} {d : Json → Option α} {R : Json → α → Prop} (h : Gives d R) : Gives (decVec d) (ListIs R) := by
  intro j l hl
  cases j <;> simp only [decVec, reduceCtorEq] at hl
  rename_i js
  refine ⟨js, rfl, ?_⟩
  induction js generalizing l with
  | nil => cases hl; exact .nil
  | cons a js ih =>
    simp only [decAll] at hl
    split at hl
    · rename_i x r h1 h2
      cases hl
      exact .cons (h _ _ h1) (ih _ h2)
    · cases hl

theorem gives_req {α : Type} {d : Json → Option α} {R : Json → α → Prop} (h : Gives d R) {k : Str}
    {es : List (Str × Json)} {a : α} (ha : reqField d k es = some a) : Req R k es a := by
  obtain ⟨v, h1, h2⟩ := reqField_some ha
  exact ⟨v, h1, h _ _ h2⟩

theorem gives_opt {α : Type} {d : Json → Option α} {R : Json → α → Prop} (h : Gives d R) {k : Str}
    {es : List (Str × Json)} {o : Option α} (ho : optField d k es = some o) : Opt R k es o := by
  cases o with
  | some a =>
    obtain ⟨v, h1, h2⟩ := optField_some ho
    exact ⟨v, h1, h _ _ h2⟩
  | none =>
    intro v hv
    have hm := mem_fieldVals.2 hv
    unfold optField at ho
    split at ho
    · rename_i e; rw [e] at hm; cases hm
    · rename_i w e
      rw [e] at hm
      obtain rfl := List.mem_singleton.1 hm
      cases v <;> simp [decOpt] at ho ⊢
    · cases ho

theorem gives_dflt {α : Type} {a0 : α} {d : Json → Option α} {R : Json → α → Prop} (h : Gives d R) {k : Str}
    {es : List (Str × Json)} {a : α} (ha : dfltField a0 d k es = some a) : Dflt a0 R k es a := by
  unfold dfltField at ha
  split at ha
  · rename_i e
    cases ha
    exact .inr ⟨(fun v hv => by have := mem_fieldVals.2 hv; rw [e] at this; cases this), rfl⟩
  · rename_i v e
    exact .inl ⟨v, mem_fieldVals.1 (by rw [e]; simp), h _ _ ha⟩
  · cases ha

theorem lastVal_decMembers {α : Type} {d : Json → Option α} {es : List (Str × Json)} {r : List (Str × α)}
    (h : decMembers d es = some r) (k : Str) (a : Option α) (v : Option Json)
    (hav : ∀ x, a = some x → ∃ j, v = some j ∧ d j = some x) (hn : a = none → v = none) :
    (∀ x, lastVal k r a = some x → ∃ j, lastVal k es v = some j ∧ d j = some x) ∧
      (lastVal k r a = none → lastVal k es v = none) := by
  induction es generalizing r a v with
  | nil => cases h; exact ⟨hav, hn⟩
  | cons p es ih =>
    obtain ⟨k', j⟩ := p
    simp only [decMembers] at h
    split at h
    · rename_i x r' h1 h2
      cases h
      show (∀ y, lastVal k r' (if k' = k then some x else a) = some y → _) ∧ (lastVal k r' (if k' = k then some x else a) = none → _)
      show (∀ y, _ → ∃ i, lastVal k es (if k' = k then some j else v) = some i ∧ _) ∧ (_ → lastVal k es (if k' = k then some j else v) = none)
      split
      · exact ih h2 _ _ (fun y hy => ⟨j, rfl, by cases hy; exact h1⟩) (fun h => by cases h)
      · exact ih h2 _ _ hav hn
    · cases h

theorem lastVal_none {α : Type} {k : Str} {es : List (Str × α)} {d : Option α} (h : lastVal k es d = none) :
    d = none ∧ ∀ v, (k, v) ∉ es := by
  induction es generalizing d with
  | nil => exact ⟨h, by simp⟩
  | cons p es ih =>
    obtain ⟨h1, h2⟩ := ih (d := if p.1 = k then some p.2 else d) h
    split at h1
    · cases h1
    · rename_i hp
      refine ⟨h1, fun v hv => ?_⟩
      rcases List.mem_cons.1 hv with rfl | hv
      · exact hp rfl
      · exact h2 v hv

theorem lastVal_filter {α : Type} {k : Str} {ks : List Str} (hk : k ∉ ks) (es : List (Str × α)) (d : Option α) :
    lastVal k (es.filter fun p => !ks.contains p.1) d = lastVal k es d := by
  induction es generalizing d with
  | nil => rfl
  | cons p es ih =>
    by_cases hp : p.1 ∈ ks
    · have e : p.1 ≠ k := fun e => hk (e ▸ hp)
      rw [List.filter_cons_of_neg (by simpa using hp), ih]
      show _ = lastVal k es (if p.1 = k then some p.2 else d)
      rw [if_neg e]
    · rw [List.filter_cons_of_pos (by simpa using hp)]
      exact ih _

/-- The members that are not taken by fields. -/
theorem gives_map {α : Type} {d : Json → Option α} {R : Json → α → Prop} (h : Gives d R) {es : List (Str × Json)}
    {r : List (Str × α)} {ks : List Str} (hr : decMembers d (es.filter fun p => !ks.contains p.1) = some r) :
    MapIs R ks es (HMap.ofList r) := by
  have key := fun k => lastVal_decMembers hr k none none (fun _ h => by cases h) (fun _ => rfl)
  refine ⟨fun k a ha => ?_, fun k hk => ?_⟩
  · rw [HMap.get_ofList] at ha
    obtain ⟨j, hj, hd⟩ := (key k).1 a ha
    have hk : k ∉ ks := by
      obtain ⟨a, b, e, -⟩ := lastVal_iff.1 hj
      exact (mem_rest (p := (k, j)) (by rw [e]; simp)).2
    rw [lastVal_filter hk] at hj
    exact ⟨hk, j, lastVal_iff.1 hj, h _ _ hd⟩
  · rw [HMap.get_ofList] at hk
    by_cases hks : k ∈ ks
    · exact .inl hks
    · have := (key k).2 hk
      rw [lastVal_filter hks] at this
      exact .inr (lastVal_none this).2

theorem gives_hmap {α : Type} {d : Json → Option α} {R : Json → α → Prop} (h : Gives d R) :
    Gives (decMap d) (fun j m => ∃ es, j = .obj es ∧ MapIs R [] es m) := by
  intro j m hm
  cases j <;> simp only [decMap, reduceCtorEq, Option.map_eq_some_iff] at hm
  rename_i es
  obtain ⟨r, hr, rfl⟩ := hm
  refine ⟨es, rfl, gives_map h (ks := []) ?_⟩
  rwa [List.filter_eq_self.2 (by simp)]

theorem gives_epk : Gives decEpk EpkIs := by
  intro j a h
  simp only [decEpk, Option.bind_eq_bind, Option.bind_eq_some_iff, Option.pure_def, Option.some.injEq,
    structEntries_iff] at h
  obtain ⟨es, he, _, h1, _, h2, _, h3, _, h4, rfl⟩ := h
  exact ⟨es, he, gives_req gives_str h1, gives_req gives_str h2, gives_req gives_str h3, gives_opt gives_str h4⟩

theorem gives_ops : Gives decKeyOps (NameIs KeyOps.label) :=
  gives_name fun s a h => by rw [C40_labels.2.1] at h; exact h

theorem gives_alg : Gives decKeyAlgorithm (NameIs KeyAlgorithm.label) :=
  gives_name fun s a h => by rw [C40_labels.2.2] at h; exact h

theorem gives_typ : Gives decMessageType (NameIs MessageType.label) :=
  gives_name fun s a h => by rw [C40_labels.1] at h; exact h

theorem gives_key : Gives decJwk KeyIs := by
  intro j a h
  simp only [decJwk, Option.bind_eq_bind, Option.bind_eq_some_iff, Option.pure_def, Option.some.injEq, mapEntries_iff] at h
  obtain ⟨es, he, _, h1, _, h2, _, h3, _, h4, _, h5, _, h6, _, h7, _, h8, rfl⟩ := h
  exact ⟨es, he, gives_opt gives_str h1, gives_opt gives_str h2, gives_opt gives_str h3, gives_req (gives_list gives_ops) h4,
    gives_req gives_alg h5, gives_opt gives_str h6, gives_opt gives_epk h7, gives_map gives_str h8⟩

theorem gives_jwm {es : List (Str × Json)} {a : JwmHeader} (h : decJwmE es = some a) : HeaderIs es a := by
  simp only [decJwmE, Option.bind_eq_bind, Option.bind_eq_some_iff, Option.pure_def, Option.some.injEq] at h
  obtain ⟨_, h1, _, h2, _, h3, _, h4, _, h5, _, h6, _, h7, _, h8, _, h9, rfl⟩ := h
  exact ⟨gives_req gives_typ h1, gives_opt gives_str h2, gives_opt gives_str h3, gives_opt gives_str h4,
    gives_opt gives_str h5, gives_opt gives_str h6, gives_opt gives_key h7, gives_opt gives_key h8, gives_opt gives_str h9⟩

theorem gives_header : Gives decJwm HeaderTreeIs := by
  intro j a h
  simp only [decJwm, Option.bind_eq_bind, Option.bind_eq_some_iff, structEntries_iff] at h
  obtain ⟨es, he, h⟩ := h
  exact ⟨es, he, gives_jwm h⟩

theorem gives_encoded : Gives decHeaderB64 EncodedIs := by
  intro j a h
  unfold decHeaderB64 at h
  split at h
  · cases h; exact .inl ⟨rfl, rfl⟩
  · rename_i s
    rw [Option.bind_eq_some_iff] at h
    obtain ⟨bs, hb, h⟩ := h
    unfold decHeaderBytes parseBytes at h
    split at h
    · rename_i i hi
      split at hi
      · rename_i text ht
        rw [← utf8Decode_eq_some.1 ht] at hb
        refine .inr ⟨s, text, i, rfl, C02_decode_iff.1 hb, parseJson_iff.1 hi, ?_⟩
        by_cases hn : i = .null
        · subst hn; cases h; exact .inl ⟨rfl, rfl⟩
        · right
          have : (decJwm i).map some = some a := by cases i <;> first | exact absurd rfl hn | exact h
          rw [Option.map_eq_some_iff] at this
          obtain ⟨x, hx, rfl⟩ := this
          exact ⟨x, gives_header _ _ hx, rfl⟩
      · cases hi
    · cases h
  · cases h

theorem gives_prior : Gives decPrior PriorIs := by
  intro j a h
  simp only [decPrior, Option.bind_eq_bind, Option.bind_eq_some_iff, Option.pure_def, Option.some.injEq,
    structEntries_iff] at h
  obtain ⟨es, he, _, h1, _, h2, rfl⟩ := h
  exact ⟨es, he, gives_opt gives_str h1, gives_req gives_str h2⟩

theorem gives_thread : Gives decThread ThreadIs := by
  intro j a h
  simp only [decThread, Option.bind_eq_bind, Option.bind_eq_some_iff, Option.pure_def, Option.some.injEq,
    structEntries_iff] at h
  obtain ⟨es, he, _, h1, _, h2, _, h3, _, h4, _, h5, rfl⟩ := h
  exact ⟨es, he, gives_req gives_str h1, gives_req gives_str h2, gives_opt gives_nat h3, gives_opt (gives_hmap gives_nat) h4,
    gives_opt gives_str h5⟩

theorem gives_entryE {es : List (Str × Json)} {r : Recipient} (h : decRecipientE es = some r) : EntryIs es r := by
  simp only [decRecipientE, Option.bind_eq_bind, Option.bind_eq_some_iff, Option.pure_def, Option.some.injEq] at h
  obtain ⟨_, h1, _, h2, rfl⟩ := h
  exact ⟨gives_req gives_key h1, gives_req gives_str h2⟩

theorem gives_entry : Gives decRecipient EntryTreeIs := by
  intro j a h
  simp only [decRecipient, Option.bind_eq_bind, Option.bind_eq_some_iff, structEntries_iff] at h
  obtain ⟨es, he, h⟩ := h
  exact ⟨es, he, gives_entryE h⟩

theorem gives_data : Gives decAttachmentData DataIs := by
  intro j a h
  simp only [decAttachmentData, Option.bind_eq_bind, Option.bind_eq_some_iff, Option.pure_def, Option.some.injEq,
    structEntries_iff] at h
  obtain ⟨es, he, _, h1, _, h2, _, h3, _, h4, _, h5, rfl⟩ := h
  exact ⟨es, he, gives_opt gives_str h1, gives_opt gives_str h2, gives_dflt (gives_list gives_str) h3,
    gives_opt gives_str h4, gives_opt gives_str h5⟩

theorem gives_attachment : Gives decAttachment AttachmentIs := by
  intro j a h
  simp only [decAttachment, Option.bind_eq_bind, Option.bind_eq_some_iff, Option.pure_def, Option.some.injEq,
    structEntries_iff] at h
  obtain ⟨es, he, _, h1, _, h2, _, h3, _, h4, _, h5, _, h6, _, h7, _, h8, rfl⟩ := h
  exact ⟨es, he, gives_opt gives_str h1, gives_opt gives_str h2, gives_opt gives_str h3, gives_opt gives_str h4,
    gives_opt gives_str h5, gives_opt gives_str h6, gives_opt gives_nat h7, gives_req gives_data h8⟩

theorem gives_signatureE {es : List (Str × Json)} {s : Signature} (h : decSignatureE es = some s) : SignatureIs es s := by
  simp only [decSignatureE, Option.bind_eq_bind, Option.bind_eq_some_iff, Option.pure_def, Option.some.injEq] at h
  obtain ⟨_, h1, _, h2, _, h3, rfl⟩ := h
  refine ⟨gives_dflt gives_encoded h1, gives_opt gives_header h2, gives_dflt (fun j bs h => ?_) h3⟩
  obtain ⟨s, rfl, hs⟩ := decBufferB64_some h
  exact ⟨s, rfl, C02_decode_iff.1 hs⟩

theorem gives_signature : Gives decSignature SignatureTreeIs := by
  intro j a h
  simp only [decSignature, Option.bind_eq_bind, Option.bind_eq_some_iff, structEntries_iff] at h
  obtain ⟨es, he, h⟩ := h
  exact ⟨es, he, gives_signatureE h⟩

/-! ## Members among others -/

theorem req_filter {α : Type} {R : Json → α → Prop} {k : Str} {es : List (Str × Json)} {a : α} {q : Str × Json → Bool}
    (h : Req R k (es.filter q) a) : Req R k es a := by
  obtain ⟨v, h1, h2⟩ := h
  exact ⟨v, (List.mem_filter.1 h1).1, h2⟩

theorem opt_filter {α : Type} {R : Json → α → Prop} {k : Str} {ks : List Str} (hk : k ∉ ks) {es : List (Str × Json)}
    {o : Option α} (h : Opt R k (es.filter fun p => !ks.contains p.1) o) : Opt R k es o := by
  cases o with
  | some a => exact req_filter h
  | none => exact fun v hv => h v (List.mem_filter.2 ⟨hv, by simpa using hk⟩)

theorem dflt_filter {α : Type} {a0 : α} {R : Json → α → Prop} {k : Str} {ks : List Str} (hk : k ∉ ks)
    {es : List (Str × Json)} {a : α} (h : Dflt a0 R k (es.filter fun p => !ks.contains p.1) a) : Dflt a0 R k es a := by
  rcases h with h | ⟨h, e⟩
  · exact .inl (req_filter h)
  · exact .inr ⟨fun v hv => h v (List.mem_filter.2 ⟨hv, by simpa using hk⟩), e⟩

theorem header_filter {ks : List Str} (hk : ∀ k ∈ headerNames, k ∉ ks) {es : List (Str × Json)} {h : JwmHeader}
    (hh : HeaderIs (es.filter fun p => !ks.contains p.1) h) : HeaderIs es h := by
  obtain ⟨h1, h2, h3, h4, h5, h6, h7, h8, h9⟩ := hh
  simp only [headerNames, List.forall_mem_cons] at hk
  obtain ⟨-, k2, k3, k4, k5, k6, k7, k8, k9, -⟩ := hk
  exact ⟨req_filter h1, opt_filter k2 h2, opt_filter k3 h3, opt_filter k4 h4, opt_filter k5 h5, opt_filter k6 h6,
    opt_filter k7 h7, opt_filter k8 h8, opt_filter k9 h9⟩

theorem filter_filter_keys (a b : List Str) (es : List (Str × Json)) :
    ((es.filter fun p => !a.contains p.1).filter fun p => !b.contains p.1) = es.filter fun p => !(a ++ b).contains p.1 := by
  rw [List.filter_filter]
  congr 1
  funext p
  simp [Bool.and_comm]

/-- C96.  What a message holds is what the members of its document say. -/
theorem C96_message (F : Str → Option Str) (s : Str) (es : List (Str × Json)) (m : Message) (hd : Document (.obj es) s)
    (h : Message.ofText F s = some m) : MessageIs F es m := by
  unfold Message.ofText at h
  rw [parseJson_iff.2 hd] at h
  simp only [decMessage, mapEntries, Option.bind_eq_bind, Option.bind_some, Option.bind_eq_some_iff, Option.pure_def,
    Option.some.injEq] at h
  obtain ⟨_, a1, _, a2, _, a3, _, -, _, a5, _, a6, rfl⟩ := h
  rw [filter_filter_keys] at a6
  simp only [decDidcommE, Option.bind_eq_bind, Option.bind_eq_some_iff, Option.pure_def, Option.some.injEq] at a6
  obtain ⟨_, h1, _, h2, _, h3, _, h4, _, h5, _, h6, _, h7, _, h8, _, h9, _, h10, _, h11, rfl⟩ := a6
  rw [filter_filter_keys] at h11
  refine ⟨header_filter (by decide) (gives_jwm a5), ⟨?_, ?_, ?_, ?_, ?_, ?_, ?_, ?_, ?_, ?_, gives_map gives_str h11⟩,
    gives_opt (gives_list gives_entry) a1, ?_, gives_dflt (gives_list gives_attachment) a3, rfl, rfl⟩
  · exact req_filter (gives_req gives_str h1)
  · exact opt_filter (by decide) (gives_opt gives_str h2)
  · exact opt_filter (by decide) (gives_opt gives_str h3)
  · exact req_filter (gives_req gives_str h4)
  · exact req_filter (gives_req (gives_list gives_str) h5)
  · exact opt_filter (by decide) (gives_opt gives_str h6)
  · exact opt_filter (by decide) (gives_opt gives_nat h7)
  · exact opt_filter (by decide) (gives_opt gives_nat h8)
  · exact opt_filter (by decide) (gives_opt gives_prior h9)
  · exact opt_filter (by decide) (gives_opt gives_thread h10)
  · refine gives_req (fun j v h => ?_) a2
    unfold toValue at h
    split at h
    · exact normJ_iff.1 h
    · cases h

/-- C96.  What an encrypted envelope holds. -/
theorem C96_jwe (F : Str → Option Str) (s : Str) (es : List (Str × Json)) (e : Jwe) (hd : Document (.obj es) s)
    (h : Jwe.ofText F s = some e) : JweIs es e := by
  unfold Jwe.ofText at h
  rw [parseJson_iff.2 hd] at h
  simp only [decJwe, mapEntries, Option.bind_eq_bind, Option.bind_some, Option.bind_eq_some_iff, Option.pure_def,
    Option.some.injEq] at h
  obtain ⟨_, a1, _, a2, _, a3, _, a4, _, a5, _, a6, _, -, rfl⟩ := h
  refine ⟨gives_dflt gives_encoded a1, gives_opt gives_header a2, gives_opt (gives_list gives_entry) a3,
    gives_req gives_str a4, gives_req gives_str a5, gives_opt gives_str a6, fun r hr => ?_⟩
  obtain ⟨h1, h2⟩ := gives_entryE hr
  exact ⟨req_filter h1, req_filter h2⟩

/-- C96.  What a signed document holds. -/
theorem C96_jws (F : Str → Option Str) (s : Str) (es : List (Str × Json)) (e : Jws) (hd : Document (.obj es) s)
    (h : Jws.ofText F s = some e) : JwsIs es e := by
  obtain ⟨j, jm, e', hj, -, he, hb⟩ := ofText_decJws h
  rw [parseJson_iff.2 hd] at hj
  cases hj
  simp only [decJws, mapEntries, Option.bind_eq_bind, Option.bind_some, Option.bind_eq_some_iff, Option.pure_def,
    Option.some.injEq] at he
  obtain ⟨_, a1, _, a2, _, -, rfl⟩ := he
  have key : ∀ s, decSignatureE (es.filter fun p => !jwsKeys.contains p.1) = some s → SignatureIs es s := by
    intro s hs
    obtain ⟨h1, h2, h3⟩ := gives_signatureE hs
    exact ⟨dflt_filter (by decide) h1, opt_filter (by decide) h2, dflt_filter (by decide) h3⟩
  rcases borrowed_eq hb with rfl | rfl
  · exact ⟨gives_req gives_str a1, gives_opt (gives_list gives_signature) a2, key⟩
  · exact ⟨gives_req gives_str a1, gives_opt (gives_list gives_signature) a2, fun s h => by cases h⟩

/-! ## The members determine the values -/

/-- In documents of the shape the relation has at most one value, and `null` has none. -/
def Det {α : Type} (t : Ty) (R : Json → α → Prop) : Prop :=
  (∀ j a b, Conforms t j → R j a → R j b → a = b) ∧ ∀ a, ¬ R .null a

theorem notTwice_unique {k : Str} {es : List (Str × Json)} (h : NotTwice k es) {v w : Json} (hv : (k, v) ∈ es)
    (hw : (k, w) ∈ es) : v = w := by
  have hl := (fieldVals_ofMem k es).2 h
  have h1 := mem_fieldVals.2 hv
  have h2 := mem_fieldVals.2 hw
  match hf : fieldVals k es with
  | [] => rw [hf] at h1; cases h1
  | [x] =>
    rw [hf] at h1 h2
    rw [List.mem_singleton.1 h1, List.mem_singleton.1 h2]
  | _ :: _ :: _ => rw [hf] at hl; simp at hl

theorem det_req {α : Type} {t : Ty} {R : Json → α → Prop} (h : Det t R) {k : Str} {es : List (Str × Json)} {a b : α}
    (hf : Field1 (k, .required, t) es) (ha : Req R k es a) (hb : Req R k es b) : a = b := by
  simp only [Field1] at hf
  obtain ⟨v, hv, ha⟩ := ha
  obtain ⟨w, hw, hb⟩ := hb
  obtain rfl := notTwice_unique hf.1 hv hw
  rcases hf.2.2 _ hv with ⟨h, -⟩ | hc
  · cases h
  · exact h.1 _ _ _ hc ha hb

theorem det_opt {α : Type} {t : Ty} {R : Json → α → Prop} (h : Det t R) {k : Str} {es : List (Str × Json)}
    {a b : Option α} (hf : Field1 (k, .optional, t) es) (ha : Opt R k es a) (hb : Opt R k es b) : a = b := by
  simp only [Field1] at hf
  cases a with
  | none =>
    cases b with
    | none => rfl
    | some b =>
      obtain ⟨w, hw, hb⟩ := hb
      rw [ha w hw] at hb
      exact absurd hb (h.2 b)
  | some a =>
    obtain ⟨v, hv, ha⟩ := ha
    cases b with
    | none =>
      rw [hb v hv] at ha
      exact absurd ha (h.2 a)
    | some b =>
      obtain ⟨w, hw, hb⟩ := hb
      obtain rfl := notTwice_unique hf.1 hv hw
      rcases hf.2.2 _ hv with ⟨-, rfl⟩ | hc
      · exact absurd ha (h.2 a)
      · rw [h.1 _ _ _ hc ha hb]

theorem det_dflt {α : Type} {a0 : α} {t : Ty} {R : Json → α → Prop} (h : ∀ j a b, Conforms t j → R j a → R j b → a = b)
    {k : Str} {es : List (Str × Json)} {a b : α} (hf : Field1 (k, .default, t) es) (ha : Dflt a0 R k es a)
    (hb : Dflt a0 R k es b) : a = b := by
  simp only [Field1] at hf
  rcases ha with ⟨v, hv, ha⟩ | ⟨ha, rfl⟩
  · rcases hb with ⟨w, hw, hb⟩ | ⟨hb, -⟩
    · obtain rfl := notTwice_unique hf.1 hv hw
      rcases hf.2.2 _ hv with ⟨h, -⟩ | hc
      · cases h
      · exact h _ _ _ hc ha hb
    · exact absurd hv (hb v)
  · rcases hb with ⟨w, hw, hb⟩ | ⟨-, rfl⟩
    · exact absurd hw (ha w)
    · rfl

theorem members_unique {ks : List Str} {n : Nat} {j : Json} {es es' : List (Str × Json)} (h : Members ks n j es)
    (h' : Members ks n j es') : es = es' := by
  have := structEntries_iff.2 h
  rw [structEntries_iff.2 h'] at this
  exact (Option.some.inj this).symm

theorem members_null {ks : List Str} {n : Nat} {es : List (Str × Json)} : ¬ Members ks n .null es := by
  rintro (h | ⟨l, h, -⟩) <;> cases h

/-- For structs. -/
theorem det_record {α : Type} {fs : List (Str × Mode × Ty)} {ks : List Str} {n : Nat} {R : List (Str × Json) → α → Prop}
    (hk : ks = fs.map (·.1)) (h : ∀ es a b, Fields fs es → R es a → R es b → a = b) :
    Det (.record fs n) (fun j a => ∃ es, Members ks n j es ∧ R es a) := by
  refine ⟨?_, ?_⟩
  · rintro j a b hc ⟨es, he, ha⟩ ⟨es', he', hb⟩
    obtain rfl := members_unique he he'
    simp only [Conforms, ← hk] at hc
    obtain ⟨es', he', hf⟩ := hc
    obtain rfl := members_unique he he'
    exact h es a b hf ha hb
  · rintro a ⟨es, he, -⟩
    exact members_null he

theorem lastMember_unique {k : Str} {es : List (Str × Json)} {v w : Json} (hv : LastMember k es v) (hw : LastMember k es w) :
    v = w := by
  have h1 := lastVal_iff.2 hv
  rw [lastVal_iff.2 hw] at h1
  exact (Option.some.inj h1).symm

theorem det_map {α : Type} {R : Json → α → Prop} (h : ∀ j a b, R j a → R j b → a = b) {ks : List Str}
    {es : List (Str × Json)} {m m' : HMap α} (hm : MapIs R ks es m) (hm' : MapIs R ks es m') : m = m' := by
  have key : ∀ {m m' : HMap α} {k : Str} {a : α}, MapIs R ks es m → MapIs R ks es m' → m.get k = some a →
      m'.get k = some a := by
    intro m m' k a hm hm' ha
    obtain ⟨hk, v, hv, hr⟩ := hm.1 k a ha
    cases hb : m'.get k with
    | none =>
      rcases hm'.2 k hb with h | h
      · exact absurd h hk
      · obtain ⟨x, y, rfl, -⟩ := hv
        exact absurd (by simp) (h v)
    | some b =>
      obtain ⟨-, w, hw, hr'⟩ := hm'.1 k b hb
      obtain rfl := lastMember_unique hv hw
      rw [h _ _ _ hr hr']
  refine HMap.ext_get fun k => ?_
  cases ha : m.get k with
  | some a => exact (key hm hm' ha).symm
  | none =>
    cases hb : m'.get k with
    | none => rfl
    | some b => rw [key hm' hm hb] at ha; cases ha

theorem str_unique (j : Json) (a b : Str) (ha : StrIs j a) (hb : StrIs j b) : a = b := by
  cases ha; cases hb; rfl

theorem det_str : Det .str StrIs := ⟨fun j a b _ => str_unique j a b, fun a h => by cases h⟩

theorem nat_unique (j : Json) (a b : UInt64) (ha : NatIs j a) (hb : NatIs j b) : a = b := by
  obtain ⟨t, rfl, h1⟩ := ha
  obtain ⟨t', h, h2⟩ := hb
  cases h
  exact UInt64.toNat_inj.1 (h1.symm.trans h2)

theorem det_nat : Det u64 NatIs := ⟨fun j a b _ => nat_unique j a b, fun a ⟨_, h, _⟩ => by cases h⟩

theorem det_name {α : Type} {label : α → Str} (h : ∀ a b, label a = label b → a = b) (t : Ty) : Det t (NameIs label) := by
  refine ⟨?_, ?_⟩
  · rintro j a b - ha hb
    apply h
    rcases ha with rfl | rfl <;> rcases hb with hb | hb
    · exact Json.str.inj hb
    · cases hb
    · cases hb
    · simp only [Json.obj.injEq, List.cons.injEq, Prod.mk.injEq, and_true] at hb; exact hb
  · rintro a (h | h) <;> cases h

theorem det_list {α : Type} {t : Ty} {R : Json → α → Prop} (h : Det t R) : Det (.list t) (ListIs R) := by
  refine ⟨?_, fun a ⟨_, h, _⟩ => by cases h⟩
  rintro j a b hc ⟨js, rfl, ha⟩ ⟨js', e, hb⟩
  cases e
  simp only [Conforms, Json.arr.injEq, exists_eq_left'] at hc
  induction ha generalizing b with
  | nil => cases hb; rfl
  | cons h1 h2 ih =>
    cases hb with
    | cons h3 h4 =>
      rw [h.1 _ _ _ (hc _ (List.mem_cons_self ..)) h1 h3, ih _ h4 (fun x hx => hc x (List.mem_cons_of_mem _ hx))]

theorem det_epk : Det epkTy EpkIs := by
  refine det_record rfl fun es a b hf ha hb => ?_
  obtain ⟨f1, f2, f3, f4, -⟩ := hf
  obtain ⟨a1, a2, a3, a4⟩ := ha
  obtain ⟨b1, b2, b3, b4⟩ := hb
  cases a; cases b
  simp only [Epk.mk.injEq]
  exact ⟨det_req det_str f1 a1 b1, det_req det_str f2 a2 b2, det_req det_str f3 a3 b3, det_opt det_str f4 a4 b4⟩

theorem det_key : Det keyTy KeyIs := by
  refine ⟨?_, fun a ⟨_, h, _⟩ => by cases h⟩
  rintro j a b hc ⟨es, rfl, a1, a2, a3, a4, a5, a6, a7, a8⟩ ⟨es', e, b1, b2, b3, b4, b5, b6, b7, b8⟩
  cases e
  simp only [keyTy, Conforms, Json.obj.injEq, exists_eq_left'] at hc
  obtain ⟨⟨f1, f2, f3, f4, f5, f6, f7, -⟩, -⟩ := hc
  cases a; cases b
  simp only [Jwk.mk.injEq]
  exact ⟨det_opt det_str f1 a1 b1, det_opt det_str f2 a2 b2, det_opt det_str f3 a3 b3,
    det_req (det_list (det_name (label := KeyOps.label) (fun _ _ h => C40_labels_injective.2.1 h) _)) f4 a4 b4,
    det_req (det_name (label := KeyAlgorithm.label) (fun _ _ h => C40_labels_injective.2.2 h) _) f5 a5 b5, det_opt det_str f6 a6 b6, det_opt det_epk f7 a7 b7,
    det_map str_unique a8 b8⟩

theorem header_unique {es : List (Str × Json)} {a b : JwmHeader} (hf : Fields headerFields es) (ha : HeaderIs es a)
    (hb : HeaderIs es b) : a = b := by
  obtain ⟨f1, f2, f3, f4, f5, f6, f7, f8, f9, -⟩ := hf
  obtain ⟨a1, a2, a3, a4, a5, a6, a7, a8, a9⟩ := ha
  obtain ⟨b1, b2, b3, b4, b5, b6, b7, b8, b9⟩ := hb
  cases a; cases b
  simp only [JwmHeader.mk.injEq]
  exact ⟨det_req (det_name (label := MessageType.label) (fun _ _ h => C40_labels_injective.1 h) _) f1 a1 b1, det_opt det_str f2 a2 b2,
    det_opt det_str f3 a3 b3, det_opt det_str f4 a4 b4, det_opt det_str f5 a5 b5, det_opt det_str f6 a6 b6,
    det_opt det_key f7 a7 b7, det_opt det_key f8 a8 b8, det_opt det_str f9 a9 b9⟩

theorem det_header : Det headerTy HeaderTreeIs := det_record rfl fun _ _ _ => header_unique

theorem encoded_unique (j : Json) (a b : Option JwmHeader) (hc : Conforms (.encoded headerTy) j) (ha : EncodedIs j a)
    (hb : EncodedIs j b) : a = b := by
  rcases ha with ⟨rfl, rfl⟩ | ⟨s, text, i, rfl, h1, h2, ha⟩
  · rcases hb with ⟨-, rfl⟩ | ⟨s, text, i, h, -⟩
    · rfl
    · cases h
  · rcases hb with ⟨h, -⟩ | ⟨s', text', i', h, h1', h2', hb⟩
    · cases h
    · cases h
      have key : ∀ {text' i'}, Base64Text (utf8 text') s → Document i' text' → text' = text ∧ i' = i := by
        intro text' i' h1' h2'
        have h3 := C02_decode_iff.2 h1
        rw [C02_decode_iff.2 h1'] at h3
        have h4 : text' = text := by simpa using congrArg utf8Decode (Option.some.inj h3)
        subst h4
        have h5 := parseJson_iff.2 h2
        rw [parseJson_iff.2 h2'] at h5
        exact ⟨rfl, Option.some.inj h5⟩
      obtain ⟨-, rfl⟩ := key h1' h2'
      simp only [Conforms, reduceCtorEq, false_or, Json.str.injEq] at hc
      obtain ⟨_, text'', i'', rfl, h1'', h2'', hc⟩ := hc
      obtain ⟨-, rfl⟩ := key h1'' h2''
      rcases ha with ⟨e, rfl⟩ | ⟨x, hx, rfl⟩
      · rcases hb with ⟨-, rfl⟩ | ⟨y, hy, rfl⟩
        · rfl
        · subst e; exact absurd hy (det_header.2 y)
      · rcases hb with ⟨e, rfl⟩ | ⟨y, hy, rfl⟩
        · subst e; exact absurd hx (det_header.2 x)
        · rcases hc with rfl | hc
          · exact absurd hx (det_header.2 x)
          · rw [det_header.1 _ _ _ hc hx hy]

theorem det_prior : Det priorTy PriorIs := by
  refine det_record rfl fun es a b hf ha hb => ?_
  obtain ⟨f1, f2, -⟩ := hf
  obtain ⟨a1, a2⟩ := ha
  obtain ⟨b1, b2⟩ := hb
  cases a; cases b
  simp only [PriorClaims.mk.injEq]
  exact ⟨det_opt det_str f1 a1 b1, det_req det_str f2 a2 b2⟩

theorem det_orders : Det (.map u64) (fun j (m : HMap UInt64) => ∃ es, j = .obj es ∧ MapIs NatIs [] es m) := by
  refine ⟨?_, fun a ⟨_, h, _⟩ => by cases h⟩
  rintro j a b - ⟨es, rfl, ha⟩ ⟨es', e, hb⟩
  cases e
  exact det_map nat_unique ha hb

theorem det_thread : Det threadTy ThreadIs := by
  refine det_record rfl fun es a b hf ha hb => ?_
  obtain ⟨f1, f2, f3, f4, f5, -⟩ := hf
  obtain ⟨a1, a2, a3, a4, a5⟩ := ha
  obtain ⟨b1, b2, b3, b4, b5⟩ := hb
  cases a; cases b
  simp only [Thread.mk.injEq]
  exact ⟨det_req det_str f1 a1 b1, det_req det_str f2 a2 b2, det_opt det_nat f3 a3 b3, det_opt det_orders f4 a4 b4,
    det_opt det_str f5 a5 b5⟩

theorem entry_unique {es : List (Str × Json)} {a b : Recipient} (hf : Fields entryFields es) (ha : EntryIs es a)
    (hb : EntryIs es b) : a = b := by
  obtain ⟨f1, f2, -⟩ := hf
  obtain ⟨a1, a2⟩ := ha
  obtain ⟨b1, b2⟩ := hb
  cases a; cases b
  simp only [Recipient.mk.injEq]
  exact ⟨det_req det_key f1 a1 b1, det_req det_str f2 a2 b2⟩

theorem det_entry : Det entryTy EntryTreeIs := det_record rfl fun _ _ _ => entry_unique

theorem det_data : Det attachmentDataTy DataIs := by
  refine det_record rfl fun es a b hf ha hb => ?_
  obtain ⟨f1, f2, f3, f4, f5, -⟩ := hf
  obtain ⟨a1, a2, a3, a4, a5⟩ := ha
  obtain ⟨b1, b2, b3, b4, b5⟩ := hb
  cases a; cases b
  simp only [AttachmentData.mk.injEq]
  exact ⟨det_opt det_str f1 a1 b1, det_opt det_str f2 a2 b2, det_dflt (det_list det_str).1 f3 a3 b3, det_opt det_str f4 a4 b4,
    det_opt det_str f5 a5 b5⟩

theorem det_attachment : Det attachmentTy AttachmentIs := by
  refine det_record rfl fun es a b hf ha hb => ?_
  obtain ⟨f1, f2, f3, f4, f5, f6, f7, f8, -⟩ := hf
  obtain ⟨a1, a2, a3, a4, a5, a6, a7, a8⟩ := ha
  obtain ⟨b1, b2, b3, b4, b5, b6, b7, b8⟩ := hb
  cases a; cases b
  simp only [Attachment.mk.injEq]
  exact ⟨det_opt det_str f1 a1 b1, det_opt det_str f2 a2 b2, det_opt det_str f3 a3 b3, det_opt det_str f4 a4 b4,
    det_opt det_str f5 a5 b5, det_opt det_str f6 a6 b6, det_opt det_nat f7 a7 b7, det_req det_data f8 a8 b8⟩

theorem signature_unique {es : List (Str × Json)} {a b : Signature} (hf : Fields signatureFields es)
    (ha : SignatureIs es a) (hb : SignatureIs es b) : a = b := by
  obtain ⟨f1, f2, f3, -⟩ := hf
  obtain ⟨a1, a2, a3⟩ := ha
  obtain ⟨b1, b2, b3⟩ := hb
  cases a; cases b
  simp only [Signature.mk.injEq]
  refine ⟨det_dflt encoded_unique f1 a1 b1, det_opt det_header f2 a2 b2, det_dflt ?_ f3 a3 b3⟩
  rintro j a b - ⟨s, rfl, ha⟩ ⟨s', e, hb⟩
  cases e
  have := C02_decode_iff.2 ha
  rw [C02_decode_iff.2 hb] at this
  exact (Option.some.inj this).symm

theorem det_signature : Det signatureTy SignatureTreeIs := det_record rfl fun _ _ _ => signature_unique

theorem message_unique {F : Str → Option Str} {es : List (Str × Json)} {a b : Message} (hc : Conforms messageTy (.obj es))
    (ha : MessageIs F es a) (hb : MessageIs F es b) : a = b := by
  simp only [messageTy, Conforms, Json.obj.injEq, exists_eq_left', List.cons_append, Fields, fields_append] at hc
  obtain ⟨⟨r1, r2, r3, fh, f1, f2, f3, f4, f5, f6, f7, f8, f9, f10, -⟩, -⟩ := hc
  obtain ⟨ah, ⟨a1, a2, a3, a4, a5, a6, a7, a8, a9, a10, a11⟩, ar, ab, at', ax, ay⟩ := ha
  obtain ⟨bh, ⟨b1, b2, b3, b4, b5, b6, b7, b8, b9, b10, b11⟩, br, bb, bt', bx, by'⟩ := hb
  obtain ⟨aj, ad, _, _, _, _, _⟩ := a
  obtain ⟨bj, bd, _, _, _, _, _⟩ := b
  cases ad; cases bd
  simp only [Message.mk.injEq, DidCommHeader.mk.injEq]
  refine ⟨header_unique fh ah bh, ⟨det_req det_str f1 a1 b1, det_opt det_str f2 a2 b2, det_opt det_str f3 a3 b3,
    det_req det_str f4 a4 b4, det_req (det_list det_str) f5 a5 b5, det_opt det_str f6 a6 b6, det_opt det_nat f7 a7 b7,
    det_opt det_nat f8 a8 b8, det_opt det_prior f9 a9 b9, det_opt det_thread f10 a10 b10, det_map str_unique a11 b11⟩,
    det_opt (det_list det_entry) r1 ar br, ?_, ax.trans bx.symm, ay.trans by'.symm,
    det_dflt (det_list det_attachment).1 r3 at' bt'⟩
  obtain ⟨v, hv, h1⟩ := ab
  obtain ⟨w, hw, h2⟩ := bb
  simp only [Field1] at r2
  obtain rfl := notTwice_unique r2.1 hv hw
  have := normJ_iff.2 h1
  rw [normJ_iff.2 h2] at this
  exact (Option.some.inj this).symm

/-- C96.  Reading a message, completely: the text is read as `m` exactly if it is a document of the schema
whose body and headers can be kept as values and `m` holds what its members say. -/
theorem C96_message_iff (F : Str → Option Str) (s : Str) (m : Message) :
    Message.ofText F s = some m ↔ ∃ es, Document (.obj es) s ∧ Conforms messageTy (.obj es) ∧
      (∀ p ∈ es, p.1 ≠ c!"recipients" → p.1 ≠ c!"attachments" → Keeps F 1 p.2) ∧ MessageIs F es m := by
  constructor
  · intro h
    obtain ⟨es, hd, hc, hk⟩ := (C95_message F s).1 ⟨m, h⟩
    exact ⟨es, hd, hc, hk, C96_message F s es m hd h⟩
  · rintro ⟨es, hd, hc, hk, hm⟩
    obtain ⟨m', hm'⟩ := (C95_message F s).2 ⟨es, hd, hc, hk⟩
    rw [hm', message_unique hc (C96_message F s es m' hd hm') hm]

/-- C96.  Reading an encrypted envelope, completely. -/
theorem C96_jwe_iff (F : Str → Option Str) (s : Str) (e : Jwe) :
    Jwe.ofText F s = some e ↔ ∃ es, Document (.obj es) s ∧ Conforms jweTy (.obj es) ∧
      (∀ p ∈ es, p.1 ∉ jweNames → Keeps F 1 p.2) ∧ JweIs es e ∧ (e.recipient.isSome ↔ Fields entryFields es) := by
  constructor
  · intro h
    obtain ⟨es, hd, hc, hk⟩ := (C95_jwe F s).1.1 ⟨e, h⟩
    exact ⟨es, hd, hc, hk, C96_jwe F s es e hd h, (C95_jwe F s).2 e es h hd⟩
  · rintro ⟨es, hd, hc, hk, hm, hr⟩
    obtain ⟨e', he'⟩ := (C95_jwe F s).1.2 ⟨es, hd, hc, hk⟩
    have hr' := (C95_jwe F s).2 e' es he' hd
    have hm' := C96_jwe F s es e' hd he'
    rw [he', Option.some.injEq]
    simp only [jweTy, Conforms, Json.obj.injEq, exists_eq_left'] at hc
    obtain ⟨f1, f2, f3, f4, f5, f6, -⟩ := hc
    obtain ⟨a1, a2, a3, a4, a5, a6, a7⟩ := hm'
    obtain ⟨b1, b2, b3, b4, b5, b6, b7⟩ := hm
    obtain ⟨_, _, x, _, _, _, _⟩ := e'
    obtain ⟨_, _, y, _, _, _, _⟩ := e
    simp only at a7 b7 hr hr'
    simp only [Jwe.mk.injEq]
    refine ⟨det_dflt encoded_unique f1 a1 b1, det_opt det_header f2 a2 b2, ?_, det_opt (det_list det_entry) f3 a3 b3,
      det_req det_str f4 a4 b4, det_req det_str f5 a5 b5, det_opt det_str f6 a6 b6⟩
    cases x with
    | none =>
      cases y with
      | none => rfl
      | some y => simpa using hr'.2 (hr.1 rfl)
    | some x =>
      cases y with
      | none => simpa using hr.2 (hr'.1 rfl)
      | some y => rw [entry_unique (hr.1 rfl) (a7 _ rfl) (b7 _ rfl)]

/-- A signature in the flat form is taken exactly if its members conform and it is not written with
escapes. -/
theorem jws_flat_iff {F : Str → Option Str} {s : Str} {es : List (Str × Json)} {e : Jws} (hd : Document (.obj es) s)
    (h : Jws.ofText F s = some e) : e.signature.isSome ↔ Fields signatureFields es ∧
      ∀ es', DocumentW struck (.obj es') s → (c!"signature", .bool false) ∉ es' := by
  obtain ⟨j, jm, e', hj, hjm, he, hb⟩ := ofText_decJws h
  rw [parseJson_iff.2 hd] at hj
  cases hj
  have hsig : e'.signature = decSignatureE (es.filter fun p => !jwsKeys.contains p.1) := by
    simp only [decJws, mapEntries, Option.bind_eq_bind, Option.bind_some, Option.bind_eq_some_iff, Option.pure_def,
      Option.some.injEq] at he
    obtain ⟨_, -, _, -, _, -, rfl⟩ := he
    rfl
  have hf : e'.signature.isSome ↔ Fields signatureFields es := by
    rw [hsig, Option.isSome_iff_exists, signatureE_iff, fields_filter (by decide)]
  obtain ⟨jm', hdm, htw⟩ := struck_document hd
  obtain rfl : jm' = jm := by
    rw [parseStruck_iff.2 hdm] at hjm
    exact Option.some.inj hjm
  cases htw with
  | @obj _ es' t1 t2 =>
    have hone : ∀ es'', DocumentW struck (.obj es'') s → es'' = es' := by
      intro es'' h''
      have := parseStruck_iff.2 h''
      rw [hjm] at this
      cases this; rfl
    simp only [borrowed, mapEntries, Option.bind_eq_bind, Option.bind_some, Option.bind_eq_some_iff, Option.pure_def,
      Option.some.injEq] at hb
    obtain ⟨_, -, rfl⟩ := hb
    simp only
    constructor
    · intro hs
      cases hx : dfltField [] decBufferB64 c!"signature" es' with
      | none => rw [hx] at hs; cases hs
      | some b =>
        rw [hx, Option.bind_some] at hs
        refine ⟨hf.1 hs, fun es'' h'' hm => ?_⟩
        rw [hone _ h''] at hm
        exact dflt_bytes_struck hx hm
    · rintro ⟨h1, h2⟩
      have h3 := hf.2 h1
      rw [Option.isSome_iff_exists] at h3
      obtain ⟨g, hg⟩ := h3
      have h4 : ∃ b, dfltField [] decBufferB64 c!"signature" es = some b := by
        have := fields_mem h1 (f := (c!"signature", .default, .bytes)) (by simp [signatureFields])
        exact (dflt_iff reads_bytes _ _).2 this
      obtain ⟨b, h4⟩ := h4
      have h5 := dfltField_twin (R := fun s v => ∃ e, v = struck e s) (Q := fun v => v ≠ .bool false) (by
        rintro s v b ⟨e, rfl⟩ hq hb
        cases e with
        | true => exact absurd rfl hq
        | false => exact hb) ⟨t1, t2⟩ (fun v hv e => h2 es' hdm (e ▸ hv)) h4
      rw [h5, Option.bind_some, hg]
      rfl

/-- C96.  Reading a signed document, completely. -/
theorem C96_jws_iff (F : Str → Option Str) (s : Str) (e : Jws) :
    Jws.ofText F s = some e ↔ ∃ es, Document (.obj es) s ∧ Conforms jwsTy (.obj es) ∧
      (∀ p ∈ es, p.1 ∉ [c!"payload", c!"signatures"] → Keeps F 1 p.2) ∧
      (∀ jm, DocumentW struck jm s → ∀ es l x v, jm = .obj es → (c!"signatures", .arr l) ∈ es → x ∈ l →
        ((∃ es', x = .obj es' ∧ (c!"signature", v) ∈ es') ∨ ∃ l', x = .arr l' ∧ l'[2]? = some v) →
        v ≠ .bool false) ∧
      JwsIs es e ∧
      (e.signature.isSome ↔ Fields signatureFields es ∧
        ∀ es', DocumentW struck (.obj es') s → (c!"signature", .bool false) ∉ es') := by
  constructor
  · intro h
    obtain ⟨es, hd, hc, hk, hs⟩ := (C95_jws F s).1 ⟨e, h⟩
    exact ⟨es, hd, hc, hk, hs, C96_jws F s es e hd h, jws_flat_iff hd h⟩
  · rintro ⟨es, hd, hc, hk, hs, hm, hr⟩
    obtain ⟨e', he'⟩ := (C95_jws F s).2 ⟨es, hd, hc, hk, hs⟩
    have hr' := jws_flat_iff hd he'
    have hm' := C96_jws F s es e' hd he'
    rw [he', Option.some.injEq]
    simp only [jwsTy, Conforms, Json.obj.injEq, exists_eq_left'] at hc
    obtain ⟨f1, f2, -⟩ := hc
    obtain ⟨a1, a2, a3⟩ := hm'
    obtain ⟨b1, b2, b3⟩ := hm
    obtain ⟨_, x, _⟩ := e'
    obtain ⟨_, y, _⟩ := e
    simp only at a3 b3 hr hr'
    simp only [Jws.mk.injEq]
    refine ⟨det_req det_str f1 a1 b1, ?_, det_opt (det_list det_signature) f2 a2 b2⟩
    cases x with
    | none =>
      cases y with
      | none => rfl
      | some y => simpa using hr'.2 (hr.1 rfl)
    | some x =>
      cases y with
      | none => simpa using hr.2 (hr'.1 rfl)
      | some y => rw [signature_unique (hr.1 rfl).1 (a3 _ rfl) (b3 _ rfl)]

/-- What the message written by hand holds: the later of two members counts. -/
example : ∃ m es, Message.ofText (fun t => some t) handMessage2 = some m ∧ MessageIs (fun t => some t) es m ∧
    m.didcomm.other.get c!"x-n" = some c!"2" ∧ m.didcomm.createdTime = some 7 ∧
    m.didcomm.fromPrior = some ⟨none, c!"did:e:p"⟩ ∧ m.jwm.typ = .raw := by
  have h : ∃ m, Message.ofText (fun t => some t) handMessage2 = some m ∧
      (m.didcomm.other.get c!"x-n" = some c!"2" ∧ m.didcomm.createdTime = some 7 ∧
        m.didcomm.fromPrior = some ⟨none, c!"did:e:p"⟩ ∧ m.jwm.typ = .raw) := by
    have : ((Message.ofText (fun t => some t) handMessage2).map fun m => (decide (m.didcomm.other.get c!"x-n" = some c!"2" ∧
        m.didcomm.createdTime = some 7 ∧ m.didcomm.fromPrior = some ⟨none, c!"did:e:p"⟩ ∧ m.jwm.typ = .raw))) = some true := by
      decide +kernel
    obtain ⟨m, h1, h2⟩ := Option.map_eq_some_iff.1 this
    exact ⟨m, h1, of_decide_eq_true h2⟩
  obtain ⟨m, h1, h2⟩ := h
  obtain ⟨es, -, -, -, h3⟩ := (C96_message_iff _ _ _).1 h1
  exact ⟨m, es, h1, h3, h2⟩

end Verif
