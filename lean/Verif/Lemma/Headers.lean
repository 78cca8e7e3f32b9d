import Verif.Model.Headers
import Verif.Lemma.Serde
import Verif.Lemma.Value

/-! # Round trips of the header types -/

namespace Verif

/-! ## Field lookups -/

theorem reqField_of {α : Type} {d : Json → Option α} {k : Str} {es : List (Str × Json)} {v : Json}
    {a : α} (h : fieldVals k es = [v]) (hd : d v = some a) : reqField d k es = some a := by
  simp [reqField, h, hd]

theorem optField_of {α : Type} {d : Json → Option α} {e : α → Json} {k : Str}
    {es : List (Str × Json)} (o : Option α) (h : fieldVals k es = (o.map e).toList)
    (hd : ∀ a, o = some a → d (e a) = some a ∧ e a ≠ .null) : optField d k es = some o := by
  cases o with
  | none => simp [optField, h]
  | some a =>
    have := hd a rfl
    have hh : fieldVals k es = [e a] := by simpa using h
    simp only [optField, hh]
    unfold decOpt
    split
    · next he => exact absurd he this.2
    · simp [this.1]

theorem fieldVals_mapE {α : Type} {o : HOrd} {e : α → Json} {m : HMap α} {k : Str}
    (h : m.get k = none) : fieldVals k (mapE o e m) = [] := by
  apply fieldVals_none
  rintro ⟨k', v⟩ hp rfl
  obtain ⟨a, ha, -⟩ := mem_mapE.1 hp
  rw [HMap.mem_entries, h] at ha
  cases ha

theorem vecE_map_self {α : Type} (k : Str) (e : List α → Json) {l : List α} (h : l ≠ []) :
    fieldVals k (vecE k e l) = [e l] := by
  cases l with
  | nil => exact absurd rfl h
  | cons a l => simp [vecE]

/-- Lookup of keys in literal entry lists. -/
macro "look" : tactic => `(tactic|
  simp [fieldVals, fieldVals_append, fieldVals_optE_ne, fieldVals_optE_self, fieldVals_vecE_ne])

/-! ## Labels -/

theorem MessageType.ofLabel_label (t : MessageType) : MessageType.ofLabel t.label = some t := by
  cases t <;> decide +kernel

theorem KeyOps.ofLabel_label (t : KeyOps) : KeyOps.ofLabel t.label = some t := by
  cases t <;> decide +kernel

theorem KeyAlgorithm.ofLabel_label (t : KeyAlgorithm) : KeyAlgorithm.ofLabel t.label = some t := by
  cases t <;> decide +kernel

@[simp] theorem decMessageType_label (t : MessageType) : decMessageType (.str t.label) = some t :=
  MessageType.ofLabel_label t

@[simp] theorem decKeyOps_label (t : KeyOps) : decKeyOps (.str t.label) = some t :=
  KeyOps.ofLabel_label t

@[simp] theorem decKeyAlgorithm_label (t : KeyAlgorithm) : decKeyAlgorithm (.str t.label) = some t :=
  KeyAlgorithm.ofLabel_label t

/-! ## Epk -/

theorem strField {k : Str} {es : List (Str × Json)} (o : Option Str)
    (h : fieldVals k es = (o.map Json.str).toList) : optField decStr k es = some o :=
  optField_of o h (fun _ _ => ⟨rfl, by simp⟩)

theorem nullField {k : Str} {es : List (Str × Json)} (o : Option Str)
    (h : fieldVals k es = [encOpt Json.str o]) : optField decStr k es = some o := by
  unfold optField
  rw [h]
  cases o <;> rfl

theorem u64Field {k : Str} {es : List (Str × Json)} (o : Option UInt64)
    (h : fieldVals k es = (o.map encU64).toList) : optField decU64 k es = some o :=
  optField_of o h (fun _ _ => ⟨decU64_enc _, by simp [encU64]⟩)

@[simp] theorem decEpk_enc (k : Epk) : decEpk (encEpk k) = some k := by
  simp only [decEpk, encEpk, structEntries]
  rw [Option.bind_eq_bind, Option.bind_some]
  rw [reqField_of (a := k.kty) (by look; rfl) rfl, reqField_of (a := k.crv) (by look; rfl) rfl,
    reqField_of (a := k.x) (by look; rfl) rfl, strField k.y (by look)]
  rfl

/-! ## Leftover members -/

/-- No entry of the map has one of the given names. -/
def Avoids {α : Type} (m : HMap α) (ks : List Str) : Prop := ∀ k ∈ ks, m.get k = none

instance {α : Type} (m : HMap α) (ks : List Str) : Decidable (Avoids m ks) :=
  inferInstanceAs (Decidable (∀ k ∈ ks, m.get k = none))

theorem filter_optE {α : Type} {ks : List Str} {k : Str} (h : ks.contains k = true) (e : α → Json)
    (o : Option α) : (optE k e o).filter (fun p => !ks.contains p.1) = [] := by
  cases o
  · rfl
  · simp only [optE, List.filter_cons, h]; rfl

theorem filter_vecE {α : Type} {ks : List Str} {k : Str} (h : ks.contains k = true)
    (e : List α → Json) (l : List α) : (vecE k e l).filter (fun p => !ks.contains p.1) = [] := by
  cases l
  · rfl
  · simp only [vecE, List.filter_cons, h]; rfl

theorem filter_cons_in {ks : List Str} {k : Str} (h : ks.contains k = true) (v : Json)
    (es : List (Str × Json)) :
    ((k, v) :: es).filter (fun p => !ks.contains p.1) = es.filter (fun p => !ks.contains p.1) := by
  simp only [List.filter_cons, h]; rfl

theorem filter_mapE {α : Type} {ks : List Str} {o : HOrd} {e : α → Json} {m : HMap α}
    (h : Avoids m ks) : (mapE o e m).filter (fun p => !ks.contains p.1) = mapE o e m := by
  rw [List.filter_eq_self]
  rintro ⟨k, v⟩ hp
  obtain ⟨a, ha, -⟩ := mem_mapE.1 hp
  rw [HMap.mem_entries] at ha
  cases hc : ks.contains k with
  | false => rfl
  | true =>
    rw [h k (by simpa using hc)] at ha
    cases ha

/-! ## Jwk -/

/-- Keys whose custom members do not have the name of a declared field. -/
def Jwk.WF (k : Jwk) : Prop := Avoids k.other jwkKeys

instance (k : Jwk) : Decidable k.WF := inferInstanceAs (Decidable (Avoids k.other jwkKeys))

/-- Drop the fixed members from the leftovers. -/
macro "leftover" : tactic => `(tactic|
  simp only [List.filter_append, filter_optE (ks := jwkKeys) (k := c!"kty") (by decide),
    filter_optE (ks := jwkKeys) (k := c!"use") (by decide),
    filter_optE (ks := jwkKeys) (k := c!"crv") (by decide),
    filter_optE (ks := jwkKeys) (k := c!"kid") (by decide),
    filter_optE (ks := jwkKeys) (k := c!"epk") (by decide),
    filter_cons_in (ks := jwkKeys) (k := c!"key_ops") (by decide),
    filter_cons_in (ks := jwkKeys) (k := c!"alg") (by decide), List.nil_append])

theorem decJwk_enc (o : HOrd) {k : Jwk} (h : k.WF) : decJwk (encJwk o k) = some k := by
  have hm : ∀ k' ∈ jwkKeys, fieldVals k' (mapE o Json.str k.other) = [] :=
    fun k' hk => fieldVals_mapE (h k' hk)
  simp only [jwkKeys, List.forall_mem_cons] at hm
  obtain ⟨h1, h2, h3, h4, h5, h6, h7, -⟩ := hm
  simp only [decJwk, encJwk, mapEntries]
  rw [Option.bind_eq_bind, Option.bind_some]
  rw [strField k.kty (by look; simp [*]), strField k.use_ (by look; simp [*]),
    strField k.crv (by look; simp [*]),
    reqField_of (v := .arr (k.keyOps.map fun x => .str x.label)) (a := k.keyOps) (by look; simp [*])
      (by simp only [decVec]; exact decAll_map _ (fun _ _ => decKeyOps_label _)),
    reqField_of (v := .str k.alg.label) (by look; simp [*]) (decKeyAlgorithm_label _),
    strField k.kid (by look; simp [*]),
    optField_of (e := encEpk) k.epk (by look; simp [*])
      (fun a _ => ⟨decEpk_enc a, by simp [encEpk]⟩)]
  leftover
  rw [filter_mapE h]
  have := decMembers_mapE (d := decStr) (e := Json.str) o k.other (fun _ _ => rfl)
  cases hd : decMembers decStr (mapE o Json.str k.other) with
  | none => rw [hd] at this; cases this
  | some r =>
    rw [hd] at this
    simp only [Option.map_some, Option.some.injEq] at this
    simp [this]

/-! ## JwmHeader -/

/-- Both keys are well formed. -/
def JwmHeader.WF (h : JwmHeader) : Prop :=
  (∀ k, h.jwk = some k → k.WF) ∧ (∀ k, h.epk = some k → k.WF)

theorem jwkField {o : HOrd} {k : Str} {es : List (Str × Json)} (x : Option Jwk)
    (h : fieldVals k es = (x.map (encJwk o)).toList) (hw : ∀ a, x = some a → a.WF) :
    optField decJwk k es = some x :=
  optField_of x h (fun a ha => ⟨decJwk_enc o (hw a ha), by simp [encJwk]⟩)

/-- Members with the names of the header fields, and nothing else with such names. -/
theorem decJwmE_append {o : HOrd} {h : JwmHeader} (hw : h.WF) {es : List (Str × Json)}
    (hes : ∀ k ∈ jwmKeys, fieldVals k es = []) : decJwmE (jwmEntries o h ++ es) = some h := by
  simp only [jwmKeys, List.forall_mem_cons] at hes
  obtain ⟨h1, h2, h3, h4, h5, h6, h7, h8, h9, -⟩ := hes
  simp only [decJwmE, jwmEntries]
  rw [reqField_of (v := .str h.typ.label) (by look; simp [*]) (decMessageType_label _),
    strField h.enc (by look; simp [*]), strField h.kid (by look; simp [*]),
    strField h.skid (by look; simp [*]), strField h.alg (by look; simp [*]),
    strField h.jku (by look; simp [*]), jwkField (o := o.sub 0) h.jwk (by look; simp [*]) hw.1,
    jwkField (o := o.sub 1) h.epk (by look; simp [*]) hw.2, strField h.cty (by look; simp [*])]
  rfl

theorem decJwm_enc (o : HOrd) {h : JwmHeader} (hw : h.WF) : decJwm (encJwm o h) = some h := by
  simp only [decJwm, encJwm, structEntries]
  rw [Option.bind_eq_bind, Option.bind_some]
  have := decJwmE_append (o := o) hw (es := []) (fun _ _ => rfl)
  rwa [List.append_nil] at this

/-! ## PriorClaims and Thread -/

@[simp] theorem decPrior_enc (c : PriorClaims) : decPrior (encPrior c) = some c := by
  simp only [decPrior, encPrior, structEntries]
  rw [Option.bind_eq_bind, Option.bind_some]
  rw [reqField_of (a := c.iss) (by look; rfl) rfl]
  obtain ⟨s, i⟩ := c
  cases s <;> simp [optField, fieldVals, encOpt, decOpt]

theorem decMap_mapE {α : Type} {d : Json → Option α} {e : α → Json} (o : HOrd) (m : HMap α)
    (h : ∀ a, d (e a) = some a) : decMap d (.obj (mapE o e m)) = some m := by
  simp only [decMap]
  exact decMembers_mapE o m (fun p _ => h p.2)

@[simp] theorem decThread_enc (o : HOrd) (t : Thread) : decThread (encThread o t) = some t := by
  simp only [decThread, encThread, structEntries]
  rw [Option.bind_eq_bind, Option.bind_some]
  rw [reqField_of (a := t.thid) (by look; rfl) rfl, reqField_of (a := t.pthid) (by look; rfl) rfl,
    u64Field t.senderOrder (by look),
    optField_of (e := fun m => Json.obj (mapE o encU64 m)) t.receivedOrders (by look)
      (fun a _ => ⟨decMap_mapE o a decU64_enc, by simp⟩),
    strField t.goalCode (by look)]
  rfl

/-! ## DidCommHeader -/

/-- Members of a DIDComm header, and nothing else with such names. -/
theorem decDidcommE_enc {o : HOrd} {h : DidCommHeader} (hw : Avoids h.other didcommKeys)
    (hto : h.to ≠ []) : decDidcommE (didcommEntries o h) = some h := by
  have hm : ∀ k' ∈ didcommKeys, fieldVals k' (mapE (o.sub 1) Json.str h.other) = [] :=
    fun k' hk => fieldVals_mapE (hw k' hk)
  simp only [didcommKeys, List.forall_mem_cons] at hm
  obtain ⟨h1, h2, h3, h4, h5, h6, h7, h8, h9, h10, -⟩ := hm
  simp only [decDidcommE, didcommEntries]
  rw [reqField_of (v := .str h.id) (a := h.id) (by look; simp [*]) rfl,
    strField h.thid (by look; simp [*]), strField h.pthid (by look; simp [*]),
    reqField_of (v := .str h.mType) (a := h.mType) (by look; simp [*]) rfl,
    reqField_of (v := .arr (h.to.map .str)) (a := h.to) (by look; simp [*, vecE_map_self _ _ hto])
      (by simp only [decVec]; exact decAll_map _ (fun _ _ => rfl)),
    nullField h.from (by look; simp [*]),
    u64Field h.createdTime (by look; simp [*]), u64Field h.expiresTime (by look; simp [*]),
    optField_of (e := encPrior) h.fromPrior (by look; simp [*])
      (fun a _ => ⟨decPrior_enc a, by simp [encPrior]⟩),
    optField_of (e := encThread (o.sub 0)) h.thread (by look; simp [*])
      (fun a _ => ⟨decThread_enc _ a, by simp [encThread]⟩)]
  simp only [List.filter_append, filter_optE (ks := didcommKeys) (k := c!"thid") (by decide),
    filter_optE (ks := didcommKeys) (k := c!"pthid") (by decide),
    filter_optE (ks := didcommKeys) (k := c!"created_time") (by decide),
    filter_optE (ks := didcommKeys) (k := c!"expires_time") (by decide),
    filter_optE (ks := didcommKeys) (k := c!"from_prior") (by decide),
    filter_optE (ks := didcommKeys) (k := c!"~thread") (by decide),
    filter_vecE (ks := didcommKeys) (k := c!"to") (by decide),
    filter_cons_in (ks := didcommKeys) (k := c!"id") (by decide),
    filter_cons_in (ks := didcommKeys) (k := c!"type") (by decide),
    filter_cons_in (ks := didcommKeys) (k := c!"from") (by decide), List.nil_append]
  rw [filter_mapE hw]
  have := decMembers_mapE (d := decStr) (e := Json.str) (o.sub 1) h.other (fun _ _ => rfl)
  cases hd : decMembers decStr (mapE (o.sub 1) Json.str h.other) with
  | none => rw [hd] at this; cases this
  | some r =>
    rw [hd] at this
    simp only [Option.map_some, Option.some.injEq] at this
    simp [this]

end Verif
