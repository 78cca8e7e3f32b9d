import Verif.Spec.Schema
import Verif.Props.Names
import Verif.Lemma.Same
import Verif.Lemma.Denotes
import Verif.Props.Codec

/-!
# Which documents are read

C95: the decoders read exactly the documents described by the schemas of `Verif.Spec.Schema`.
-/

namespace Verif

open Spec

/-- C02.  Exactly the texts that are accepted, with the bytes they stand for. -/
theorem C02_decode_iff {s : Str} {bs : Bytes} : b64Decode s = some bs ↔ Base64Text bs s := by
  constructor
  · intro h
    obtain ⟨p, hs, hp⟩ := b64Decode_sound h
    refine ⟨_, p, isBase64Url_encode bs, ?_, hs⟩
    unfold b64PadOk at hp
    split at hp
    · simp only [decide_eq_true_eq] at hp; omega
    · split at hp
      · simp only [decide_eq_true_eq] at hp; omega
      · simp only [decide_eq_true_eq] at hp; omega
  · rintro ⟨text, p, ht, hp, rfl⟩
    obtain rfl := isBase64Url_unique ht (isBase64Url_encode bs)
    have h : ∀ x ∈ b64Encode bs, (decide (x ≠ '=')) = true := by
      intro x hx; simpa using b64Encode_noPad bs x hx
    have h1 : (b64Encode bs ++ List.replicate p '=').takeWhile (· ≠ '=') = b64Encode bs := by
      rw [List.takeWhile_append_of_pos h]
      cases p <;> simp [List.replicate_succ]
    have h2 : (b64Encode bs ++ List.replicate p '=').dropWhile (· ≠ '=') = List.replicate p '=' := by
      rw [List.dropWhile_append_of_pos h]
      cases p <;> simp [List.replicate_succ]
    have hl : (b64Encode bs).length % 4 ≠ 1 := by
      have := b64Encode_length bs
      have := Nat.div_add_mod bs.length 3
      have := Nat.mod_lt bs.length (show 3 > 0 by decide)
      generalize bs.length / 3 = q at *
      generalize bs.length % 3 = r at *
      omega
    unfold b64Decode
    simp only [h1, h2, b64DecodeData_encode, List.length_replicate]
    rw [if_pos]
    simp only [Bool.and_eq_true, List.all_replicate, b64PadOk]
    refine ⟨by simp, ?_⟩
    split
    · simp only [decide_eq_true_eq]; omega
    · split
      · simp only [decide_eq_true_eq]; omega
      · simp only [decide_eq_true_eq]; omega

/-- The decoder reads exactly the trees of the shape. -/
def Decodes {α : Type} (d : Json → Option α) (t : Ty) : Prop := ∀ j, (∃ a, d j = some a) ↔ Conforms t j

theorem reads_str : Decodes decStr .str := by
  intro j
  cases j <;> simp [decStr, Conforms]

theorem tokNat_iff {t : Str} {n : Nat} :
    tokNat t = some n ↔ t ≠ [] ∧ AllDigits t ∧ digitsVal t 0 < 2 ^ 64 ∧ n = digitsVal t 0 := by
  rw [← allDigits_iff, digitsVal_eq]
  unfold tokNat
  split
  · rename_i h
    simp only [Option.some.injEq]
    constructor
    · rintro rfl; exact ⟨h.2.1, h.1, h.2.2, rfl⟩
    · rintro ⟨-, -, -, e⟩; exact e.symm
  · rename_i h
    simp only [reduceCtorEq, false_iff]
    rintro ⟨h1, h2, h3, -⟩
    exact h ⟨h2, h1, h3⟩

theorem reads_u64 : Decodes decU64 u64 := by
  intro j
  cases j <;> simp only [decU64, Conforms, IsNat, reduceCtorEq, exists_false, false_and, Json.num.injEq]
  rename_i t
  constructor
  · rintro ⟨a, h⟩
    rw [Option.map_eq_some_iff] at h
    obtain ⟨n, hn, -⟩ := h
    obtain ⟨h1, h2, h3, -⟩ := tokNat_iff.1 hn
    exact ⟨t, rfl, h1, h2, h3⟩
  · rintro ⟨t', rfl, h1, h2, h3⟩
    rw [tokNat_iff.2 ⟨h1, h2, h3, rfl⟩]
    exact ⟨_, rfl⟩

theorem reads_u8 : Decodes decU8 (.nat 256) := by
  intro j
  cases j <;> simp only [decU8, Conforms, IsNat, reduceCtorEq, exists_false, false_and, Json.num.injEq]
  rename_i t
  constructor
  · rintro ⟨a, h⟩
    split at h
    · rename_i n hn
      obtain ⟨h1, h2, h3, rfl⟩ := tokNat_iff.1 hn
      split at h
      · exact ⟨t, rfl, h1, h2, by assumption⟩
      · cases h
    · cases h
  · rintro ⟨t', rfl, h1, h2, h3⟩
    rw [tokNat_iff.2 ⟨h1, h2, by omega, rfl⟩]
    simp [h3]

theorem reads_label {α : Type} {f : Str → Option α} {ns : List Str} (h : ∀ s, (∃ a, f s = some a) ↔ s ∈ ns) :
    Decodes (decLabel f) (.label ns) := by
  intro j
  simp only [Conforms, IsName]
  constructor
  · rintro ⟨a, ha⟩
    unfold decLabel at ha
    split at ha
    · exact ⟨_, (h _).1 ⟨a, ha⟩, .inl rfl⟩
    · exact ⟨_, (h _).1 ⟨a, ha⟩, .inr rfl⟩
    · cases ha
  · rintro ⟨s, hs, rfl | rfl⟩
    · exact (h s).2 hs
    · exact (h s).2 hs

theorem decAll_ex {α : Type} {d : Json → Option α} (l : List Json) :
    (∃ r, decAll d l = some r) ↔ ∀ x ∈ l, ∃ a, d x = some a := by
  induction l with
  | nil => simp [decAll]
  | cons j l ih =>
    simp only [List.forall_mem_cons, ← ih, decAll]
    constructor
    · rintro ⟨r, hr⟩
      split at hr
      · rename_i a r' h1 h2
        exact ⟨⟨a, h1⟩, r', h2⟩
      · cases hr
    · rintro ⟨⟨a, ha⟩, r, hr⟩
      rw [ha, hr]
      exact ⟨_, rfl⟩

theorem reads_list {α : Type} {d : Json → Option α} {t : Ty} (h : Decodes d t) : Decodes (decVec d) (.list t) := by
  intro j
  cases j <;> simp only [decVec, Conforms, reduceCtorEq, exists_false, false_and, Json.arr.injEq]
  rename_i l
  rw [decAll_ex]
  simp only [exists_eq_left', h _]

theorem decMembers_ex {α : Type} {d : Json → Option α} (es : List (Str × Json)) :
    (∃ r, decMembers d es = some r) ↔ ∀ p ∈ es, ∃ a, d p.2 = some a := by
  rw [← Option.isSome_iff_exists, decMembers_isSome]
  constructor
  · intro h p hp; exact Option.isSome_iff_exists.1 (h p.1 p.2 hp)
  · intro h k v hp; exact Option.isSome_iff_exists.2 (h _ hp)

theorem reads_map {α : Type} {d : Json → Option α} {t : Ty} (h : Decodes d t) : Decodes (decMap d) (.map t) := by
  intro j
  cases j <;> simp only [decMap, Conforms, reduceCtorEq, exists_false, false_and, Json.obj.injEq]
  rename_i es
  simp only [Option.map_eq_some_iff, exists_eq_left', ← h _]
  rw [← decMembers_ex]
  constructor
  · rintro ⟨_, r, hr, -⟩; exact ⟨r, hr⟩
  · rintro ⟨r, hr⟩; exact ⟨_, r, hr, rfl⟩

theorem reads_bytes : Decodes decBufferB64 .bytes := by
  intro j
  cases j <;> simp [decBufferB64, Conforms, C02_decode_iff]

theorem reads_opt {α : Type} {d : Json → Option α} {t : Ty} (h : Decodes d t) (j : Json) :
    (∃ a, decOpt d j = some a) ↔ j = .null ∨ Conforms t j := by
  rw [← h j]
  cases j <;> simp only [decOpt, Option.some.injEq, exists_eq', true_or, reduceCtorEq, false_or, Option.map_eq_some_iff] <;>
    exact ⟨fun ⟨_, a, h, _⟩ => ⟨a, h⟩, fun ⟨a, h⟩ => ⟨_, a, h, rfl⟩⟩

theorem decHeaderBytes_ex {bs : Bytes} {t : Ty} (h : Decodes decJwm t) :
    (∃ a, decHeaderBytes bs = some a) ↔ ∃ text i, bs = utf8 text ∧ Document i text ∧ (i = .null ∨ Conforms t i) := by
  unfold decHeaderBytes
  constructor
  · rintro ⟨a, ha⟩
    split at ha
    · rename_i i hi
      unfold parseBytes at hi
      split at hi
      · rename_i s hs
        exact ⟨s, i, (utf8Decode_eq_some.1 hs).symm, parseJson_iff.1 hi, (reads_opt h i).1 ⟨a, ha⟩⟩
      · cases hi
    · cases ha
  · rintro ⟨text, i, rfl, hd, hi⟩
    rw [parseBytes_utf8, parseJson_iff.2 hd]
    exact (reads_opt h i).2 hi

theorem reads_encoded {t : Ty} (h : Decodes decJwm t) : Decodes decHeaderB64 (.encoded t) := by
  intro j
  cases j <;> simp only [decHeaderB64, Conforms, reduceCtorEq, exists_false, false_and, Json.str.injEq, false_or,
    true_or, Option.some.injEq, exists_eq']
  rename_i s
  constructor
  · rintro ⟨a, ha⟩
    rw [Option.bind_eq_some_iff] at ha
    obtain ⟨bs, hb, ha⟩ := ha
    obtain ⟨text, i, rfl, h1, h2⟩ := (decHeaderBytes_ex h).1 ⟨a, ha⟩
    exact ⟨s, text, i, rfl, C02_decode_iff.1 hb, h1, h2⟩
  · rintro ⟨_, text, i, rfl, hb, h1, h2⟩
    rw [C02_decode_iff.2 hb]
    exact (decHeaderBytes_ex h).2 ⟨text, i, rfl, h1, h2⟩

/-! ## Members -/

theorem fieldVals_ofMem (k : Str) (es : List (Str × Json)) : (fieldVals k es).length ≤ 1 ↔ NotTwice k es := by
  rw [fieldVals_length]
  rfl

theorem req_iff {α : Type} {d : Json → Option α} {t : Ty} (h : Decodes d t) (k : Str) (es : List (Str × Json)) :
    (∃ a, reqField d k es = some a) ↔ Field1 (k, .required, t) es := by
  simp only [Field1, ← fieldVals_ofMem, ← mem_fieldVals, ← h _, reduceCtorEq, false_and, false_or, true_implies, reqField]
  match fieldVals k es with
  | [] => simp
  | [v] => simp
  | _ :: _ :: _ => simp

theorem opt_iff {α : Type} {d : Json → Option α} {t : Ty} (h : Decodes d t) (k : Str) (es : List (Str × Json)) :
    (∃ a, optField d k es = some a) ↔ Field1 (k, .optional, t) es := by
  simp only [Field1, ← fieldVals_ofMem, ← mem_fieldVals, reduceCtorEq, false_implies, true_and, optField]
  match fieldVals k es with
  | [] => simp
  | [v] => simp [reads_opt h]
  | _ :: _ :: _ => simp

theorem dflt_iff {α : Type} {a : α} {d : Json → Option α} {t : Ty} (h : Decodes d t) (k : Str) (es : List (Str × Json)) :
    (∃ a', dfltField a d k es = some a') ↔ Field1 (k, .default, t) es := by
  simp only [Field1, ← fieldVals_ofMem, ← mem_fieldVals, ← h _, reduceCtorEq, false_and, false_or, false_implies,
    true_and, dfltField]
  match fieldVals k es with
  | [] => simp
  | [v] => simp
  | _ :: _ :: _ => simp

theorem structEntries_iff {ks : List Str} {n : Nat} {j : Json} {es : List (Str × Json)} :
    structEntries ks n j = some es ↔ Members ks n j es := by
  unfold Members
  cases j <;> simp [structEntries, and_assoc, eq_comm]

theorem mapEntries_iff {j : Json} {es : List (Str × Json)} : mapEntries j = some es ↔ j = .obj es := by
  cases j <;> simp [mapEntries]

theorem rest_strs (ks : List Str) (es : List (Str × Json)) :
    (∃ r, decMembers decStr (es.filter fun p => !ks.contains p.1) = some r) ↔
      ∀ p ∈ es, p.1 ∉ ks → ∃ s, p.2 = .str s := by
  rw [decMembers_ex]
  simp only [List.mem_filter, Bool.not_eq_true', List.contains_eq_mem, decide_eq_false_iff_not, and_imp, reads_str _, Conforms]

/-! ## Parts -/

theorem reads_epk : Decodes decEpk epkTy := by
  intro j
  simp only [decEpk, epkTy, Conforms, Fields, Option.bind_eq_bind, Option.bind_eq_some_iff, Option.pure_def, Option.some.injEq,
    structEntries_iff, ← req_iff reads_str, ← opt_iff reads_str, List.map_cons, List.map_nil, and_true]
  constructor
  · rintro ⟨a, es, he, b, hb, c, hc, d, hd, e, he', rfl⟩
    exact ⟨es, he, ⟨_, hb⟩, ⟨_, hc⟩, ⟨_, hd⟩, _, he'⟩
  · rintro ⟨es, he, ⟨_, hb⟩, ⟨_, hc⟩, ⟨_, hd⟩, _, he'⟩
    exact ⟨_, es, he, _, hb, _, hc, _, hd, _, he', rfl⟩

theorem fields_filter {ks : List Str} {fs : List (Str × Mode × Ty)} (h : ∀ f ∈ fs, f.1 ∉ ks) (es : List (Str × Json)) :
    Fields fs (es.filter fun p => !ks.contains p.1) ↔ Fields fs es := by
  induction fs with
  | nil => simp [Fields]
  | cons f fs ih =>
    obtain ⟨k, m, t⟩ := f
    have hk := fieldVals_filter_keys (h _ (List.mem_cons_self ..)) es
    simp only [Fields, ih fun f hf => h f (List.mem_cons_of_mem _ hf), Field1, ← fieldVals_ofMem, ← mem_fieldVals, hk]

theorem fields_append (a b : List (Str × Mode × Ty)) (es : List (Str × Json)) :
    Fields (a ++ b) es ↔ Fields a es ∧ Fields b es := by
  induction a with
  | nil => simp [Fields]
  | cons f a ih => simp only [List.cons_append, Fields, ih, and_assoc]

theorem fields_mem {fs : List (Str × Mode × Ty)} {es : List (Str × Json)} (h : Fields fs es) {f : Str × Mode × Ty}
    (hf : f ∈ fs) : Field1 f es := by
  induction fs with
  | nil => cases hf
  | cons g fs ih =>
    rcases List.mem_cons.1 hf with rfl | hf
    · exact h.1
    · exact ih h.2 hf

theorem algNames_iff (s : Str) : (∃ a, KeyAlgorithm.ofLabel s = some a) ↔ s ∈ algNames := by
  rw [C40_names.1 s]
  simp [algNames]

theorem decodes_ops : Decodes decKeyOps (.label (c!"other" :: rfc7517Ops)) :=
  reads_label fun s => by rw [C40_names.2.1 s, List.mem_cons, or_comm]

theorem decodes_alg : Decodes decKeyAlgorithm (.label algNames) := reads_label algNames_iff

theorem decodes_typ : Decodes decMessageType (.label didcommTypes) := reads_label C40_names.2.2

theorem decodes_key : Decodes decJwk keyTy := by
  intro j
  simp only [decJwk, keyTy, Conforms, Fields, Option.bind_eq_bind, Option.bind_eq_some_iff, Option.pure_def,
    Option.some.injEq, mapEntries_iff, ← req_iff (reads_list decodes_ops), ← req_iff decodes_alg, ← opt_iff reads_str,
    ← opt_iff reads_epk, List.map_cons, List.map_nil, and_true]
  constructor
  · rintro ⟨_, es, he, _, h1, _, h2, _, h3, _, h4, _, h5, _, h6, _, h7, _, h8, rfl⟩
    exact ⟨es, he, ⟨⟨_, h1⟩, ⟨_, h2⟩, ⟨_, h3⟩, ⟨_, h4⟩, ⟨_, h5⟩, ⟨_, h6⟩, _, h7⟩, (rest_strs jwkKeys es).1 ⟨_, h8⟩⟩
  · rintro ⟨es, he, ⟨⟨_, h1⟩, ⟨_, h2⟩, ⟨_, h3⟩, ⟨_, h4⟩, ⟨_, h5⟩, ⟨_, h6⟩, _, h7⟩, h8⟩
    obtain ⟨_, h8⟩ := (rest_strs jwkKeys es).2 h8
    exact ⟨_, es, he, _, h1, _, h2, _, h3, _, h4, _, h5, _, h6, _, h7, _, h8, rfl⟩

theorem jwmE_iff (es : List (Str × Json)) : (∃ h, decJwmE es = some h) ↔ Fields headerFields es := by
  simp only [decJwmE, headerFields, Fields, Option.bind_eq_bind, Option.bind_eq_some_iff, Option.pure_def,
    Option.some.injEq, ← req_iff decodes_typ, ← opt_iff reads_str, ← opt_iff decodes_key, and_true]
  constructor
  · rintro ⟨_, _, h1, _, h2, _, h3, _, h4, _, h5, _, h6, _, h7, _, h8, _, h9, rfl⟩
    exact ⟨⟨_, h1⟩, ⟨_, h2⟩, ⟨_, h3⟩, ⟨_, h4⟩, ⟨_, h5⟩, ⟨_, h6⟩, ⟨_, h7⟩, ⟨_, h8⟩, _, h9⟩
  · rintro ⟨⟨_, h1⟩, ⟨_, h2⟩, ⟨_, h3⟩, ⟨_, h4⟩, ⟨_, h5⟩, ⟨_, h6⟩, ⟨_, h7⟩, ⟨_, h8⟩, _, h9⟩
    exact ⟨_, _, h1, _, h2, _, h3, _, h4, _, h5, _, h6, _, h7, _, h8, _, h9, rfl⟩

/-- A struct read from an object or an array. -/
theorem decodes_record {α : Type} {f : List (Str × Json) → Option α} {fs : List (Str × Mode × Ty)} {ks : List Str}
    {n : Nat} (hk : ks = fs.map (·.1)) (h : ∀ es, (∃ a, f es = some a) ↔ Fields fs es) :
    Decodes (fun j => (structEntries ks n j).bind f) (.record fs n) := by
  intro j
  simp only [Conforms, Option.bind_eq_some_iff, structEntries_iff, ← h, hk]
  constructor
  · rintro ⟨a, es, he, ha⟩; exact ⟨es, he, a, ha⟩
  · rintro ⟨es, he, a, ha⟩; exact ⟨a, es, he, ha⟩

theorem decodes_header : Decodes decJwm headerTy := decodes_record rfl jwmE_iff

theorem entryE_iff (es : List (Str × Json)) : (∃ h, decRecipientE es = some h) ↔ Fields entryFields es := by
  simp only [decRecipientE, entryFields, Fields, Option.bind_eq_bind, Option.bind_eq_some_iff, Option.pure_def,
    Option.some.injEq, ← req_iff reads_str, ← req_iff decodes_key, and_true]
  constructor
  · rintro ⟨_, _, h1, _, h2, rfl⟩
    exact ⟨⟨_, h1⟩, _, h2⟩
  · rintro ⟨⟨_, h1⟩, _, h2⟩
    exact ⟨_, _, h1, _, h2, rfl⟩

theorem decodes_entry : Decodes decRecipient entryTy := decodes_record rfl entryE_iff

theorem decodes_prior : Decodes decPrior priorTy := by
  refine decodes_record rfl fun es => ?_
  simp only [Fields, Option.bind_eq_bind, Option.bind_eq_some_iff, Option.pure_def,
    Option.some.injEq, ← req_iff reads_str, ← opt_iff reads_str, and_true]
  constructor
  · rintro ⟨_, _, h1, _, h2, rfl⟩
    exact ⟨⟨_, h1⟩, _, h2⟩
  · rintro ⟨⟨_, h1⟩, _, h2⟩
    exact ⟨_, _, h1, _, h2, rfl⟩

theorem decodes_thread : Decodes decThread threadTy := by
  refine decodes_record rfl fun es => ?_
  simp only [Fields, Option.bind_eq_bind, Option.bind_eq_some_iff, Option.pure_def,
    Option.some.injEq, ← req_iff reads_str, ← opt_iff reads_str, ← opt_iff reads_u64, ← opt_iff (reads_map reads_u64), and_true]
  constructor
  · rintro ⟨_, _, h1, _, h2, _, h3, _, h4, _, h5, rfl⟩
    exact ⟨⟨_, h1⟩, ⟨_, h2⟩, ⟨_, h3⟩, ⟨_, h4⟩, _, h5⟩
  · rintro ⟨⟨_, h1⟩, ⟨_, h2⟩, ⟨_, h3⟩, ⟨_, h4⟩, _, h5⟩
    exact ⟨_, _, h1, _, h2, _, h3, _, h4, _, h5, rfl⟩

theorem didcommE_iff (es : List (Str × Json)) :
    (∃ h, decDidcommE es = some h) ↔
      Fields didcommFields es ∧ ∀ p ∈ es, p.1 ∉ didcommFields.map (·.1) → ∃ s, p.2 = .str s := by
  simp only [decDidcommE, didcommFields, Fields, Option.bind_eq_bind, Option.bind_eq_some_iff, Option.pure_def,
    Option.some.injEq, ← req_iff reads_str, ← opt_iff reads_str, ← opt_iff reads_u64, ← req_iff (reads_list reads_str),
    ← opt_iff decodes_prior, ← opt_iff decodes_thread, List.map_cons, List.map_nil, and_true]
  constructor
  · rintro ⟨_, _, h1, _, h2, _, h3, _, h4, _, h5, _, h6, _, h7, _, h8, _, h9, _, h10, _, h11, rfl⟩
    exact ⟨⟨⟨_, h1⟩, ⟨_, h2⟩, ⟨_, h3⟩, ⟨_, h4⟩, ⟨_, h5⟩, ⟨_, h6⟩, ⟨_, h7⟩, ⟨_, h8⟩, ⟨_, h9⟩, _, h10⟩,
      (rest_strs didcommKeys es).1 ⟨_, h11⟩⟩
  · rintro ⟨⟨⟨_, h1⟩, ⟨_, h2⟩, ⟨_, h3⟩, ⟨_, h4⟩, ⟨_, h5⟩, ⟨_, h6⟩, ⟨_, h7⟩, ⟨_, h8⟩, ⟨_, h9⟩, _, h10⟩, h11⟩
    obtain ⟨_, h11⟩ := (rest_strs didcommKeys es).2 h11
    exact ⟨_, _, h1, _, h2, _, h3, _, h4, _, h5, _, h6, _, h7, _, h8, _, h9, _, h10, _, h11, rfl⟩

theorem decodes_attachmentData : Decodes decAttachmentData attachmentDataTy := by
  refine decodes_record rfl fun es => ?_
  simp only [Fields, Option.bind_eq_bind, Option.bind_eq_some_iff, Option.pure_def,
    Option.some.injEq, ← opt_iff reads_str, ← dflt_iff (a := []) (reads_list reads_str), and_true]
  constructor
  · rintro ⟨_, _, h1, _, h2, _, h3, _, h4, _, h5, rfl⟩
    exact ⟨⟨_, h1⟩, ⟨_, h2⟩, ⟨_, h3⟩, ⟨_, h4⟩, _, h5⟩
  · rintro ⟨⟨_, h1⟩, ⟨_, h2⟩, ⟨_, h3⟩, ⟨_, h4⟩, _, h5⟩
    exact ⟨_, _, h1, _, h2, _, h3, _, h4, _, h5, rfl⟩

theorem decodes_attachment : Decodes decAttachment attachmentTy := by
  refine decodes_record rfl fun es => ?_
  simp only [Fields, Option.bind_eq_bind, Option.bind_eq_some_iff, Option.pure_def,
    Option.some.injEq, ← opt_iff reads_str, ← opt_iff reads_u64, ← req_iff decodes_attachmentData, and_true]
  constructor
  · rintro ⟨_, _, h1, _, h2, _, h3, _, h4, _, h5, _, h6, _, h7, _, h8, rfl⟩
    exact ⟨⟨_, h1⟩, ⟨_, h2⟩, ⟨_, h3⟩, ⟨_, h4⟩, ⟨_, h5⟩, ⟨_, h6⟩, ⟨_, h7⟩, _, h8⟩
  · rintro ⟨⟨_, h1⟩, ⟨_, h2⟩, ⟨_, h3⟩, ⟨_, h4⟩, ⟨_, h5⟩, ⟨_, h6⟩, ⟨_, h7⟩, _, h8⟩
    exact ⟨_, _, h1, _, h2, _, h3, _, h4, _, h5, _, h6, _, h7, _, h8, rfl⟩

theorem signatureE_iff (es : List (Str × Json)) : (∃ h, decSignatureE es = some h) ↔ Fields signatureFields es := by
  simp only [decSignatureE, signatureFields, Fields, Option.bind_eq_bind, Option.bind_eq_some_iff, Option.pure_def,
    Option.some.injEq, ← dflt_iff (a := none) (reads_encoded decodes_header), ← opt_iff decodes_header,
    ← dflt_iff (a := []) reads_bytes, and_true]
  constructor
  · rintro ⟨_, _, h1, _, h2, _, h3, rfl⟩
    exact ⟨⟨_, h1⟩, ⟨_, h2⟩, _, h3⟩
  · rintro ⟨⟨_, h1⟩, ⟨_, h2⟩, _, h3⟩
    exact ⟨_, _, h1, _, h2, _, h3, rfl⟩

theorem decodes_signature : Decodes decSignature signatureTy := decodes_record rfl signatureE_iff

theorem decodes_forward : Decodes decMediated forwardTy := by
  refine decodes_record rfl fun es => ?_
  simp only [Fields, Option.bind_eq_bind, Option.bind_eq_some_iff, Option.pure_def,
    Option.some.injEq, ← req_iff reads_str, ← req_iff (reads_list reads_u8), and_true]
  constructor
  · rintro ⟨_, _, h1, _, h2, rfl⟩
    exact ⟨⟨_, h1⟩, _, h2⟩
  · rintro ⟨⟨_, h1⟩, _, h2⟩
    exact ⟨_, _, h1, _, h2, rfl⟩

theorem decodes_problem : Decodes decProblem problemTy := by
  refine decodes_record rfl fun es => ?_
  simp only [Fields, Option.bind_eq_bind, Option.bind_eq_some_iff, Option.pure_def,
    Option.some.injEq, ← req_iff reads_str, ← opt_iff reads_str, ← req_iff (reads_list reads_str), and_true]
  constructor
  · rintro ⟨_, _, h1, _, h2, _, h3, _, h4, rfl⟩
    exact ⟨⟨_, h1⟩, ⟨_, h2⟩, ⟨_, h3⟩, _, h4⟩
  · rintro ⟨⟨_, h1⟩, ⟨_, h2⟩, ⟨_, h3⟩, _, h4⟩
    exact ⟨_, _, h1, _, h2, _, h3, _, h4, rfl⟩

/-! ## Documents -/

theorem guard_some_iff {p : Prop} [Decidable p] {u : Unit} : (guard p : Option Unit) = some u ↔ p := by
  simp [guard]

theorem dflt_bytes_struck {es : List (Str × Json)} {b : Bytes} (h : dfltField [] decBufferB64 c!"signature" es = some b)
    (hm : (c!"signature", .bool false) ∈ es) : False := by
  obtain ⟨-, -, h3⟩ := (dflt_iff reads_bytes _ _).1 ⟨b, h⟩
  rcases h3 _ hm with ⟨h, -⟩ | ⟨s, bs, h, -⟩ <;> cases h

/-- A signature that is struck out cannot be read. -/
theorem sigBytes_struck {x : Json} {b : Bytes} (h : sigBytes x = some b)
    (hx : (∃ es', x = .obj es' ∧ (c!"signature", .bool false) ∈ es') ∨
      ∃ l', x = .arr l' ∧ l'[2]? = some (.bool false)) : False := by
  rcases hx with ⟨es, rfl, hm⟩ | ⟨l, rfl, hm⟩
  · simp only [sigBytes, structEntries, Option.bind_eq_bind, Option.bind_some] at h
    exact dflt_bytes_struck h hm
  · simp only [sigBytes, structEntries, Option.bind_eq_bind, Option.bind_eq_some_iff] at h
    obtain ⟨es, he, h⟩ := h
    split at he
    · cases he
      refine dflt_bytes_struck h ?_
      match l, hm with
      | a :: b :: c :: r, hm =>
        simp only [List.getElem?_cons_succ, List.getElem?_cons_zero, Option.some.injEq] at hm
        subst hm
        simp
    · cases he

theorem depthL_le {n : Nat} {l : List Json} : Json.depth.depthL l ≤ n ↔ ∀ j ∈ l, j.depth ≤ n := by
  induction l with
  | nil => simp [Json.depth.depthL]
  | cons j l ih => simp only [Json.depth.depthL, Nat.max_le, ih, List.mem_cons, forall_eq_or_imp]

theorem within_of_depth : ∀ (n : Nat) (j : Json), j.depth ≤ n → Within n j
  | _, .null, _ => .null _
  | _, .bool _, _ => .bool _ _
  | _, .num _, _ => .num _ _
  | _, .str _, _ => .str _ _
  | 0, .arr _, h => by simp only [Json.depth] at h; omega
  | n + 1, .arr l, h => by
    simp only [Json.depth] at h
    exact .arr fun j hj => within_of_depth n j (depthL_le.1 (by omega) j hj)
  | 0, .obj _, h => by simp only [Json.depth] at h; omega
  | n + 1, .obj es, h => by
    simp only [Json.depth] at h
    exact .obj fun p hp => within_of_depth n p.2 (depthM_le_iff.1 (by omega) p hp)

theorem depth_of_within {n : Nat} {j : Json} (h : Within n j) : j.depth ≤ n := by
  induction h with
  | null | bool | num | str => simp [Json.depth]
  | arr _ ih => simp only [Json.depth]; have := depthL_le.2 ih; omega
  | obj _ ih => simp only [Json.depth]; have := depthM_le_iff.2 ih; omega

theorem keeps_iff {F : Str → Option Str} {n : Nat} {j : Json} : (∃ v, toValue F n j = some v) ↔ Keeps F n j := by
  unfold toValue Keeps
  split
  · rename_i h
    simp only [normJ_iff]
    exact ⟨fun hv => ⟨127 - n, by omega, within_of_depth _ _ (by omega), hv⟩, fun ⟨_, _, _, hv⟩ => hv⟩
  · rename_i h
    constructor
    · rintro ⟨v, hv⟩; cases hv
    · rintro ⟨k, hk, hw, -⟩; have := depth_of_within hw; omega

theorem buffered_iff {F : Str → Option Str} {ks : List Str} {es : List (Str × Json)} :
    buffered F (es.filter fun p => !ks.contains p.1) = true ↔ ∀ p ∈ es, p.1 ∉ ks → Keeps F 1 p.2 := by
  simp only [buffered, List.all_eq_true, List.mem_filter, Bool.not_eq_true', List.contains_eq_mem,
    decide_eq_false_iff_not, and_imp, Option.isSome_iff_exists, keeps_iff]

theorem body_iff {F : Str → Option Str} {es : List (Str × Json)} :
    (∃ v, reqField (toValue F 1) c!"body" es = some v) ↔
      Field1 (c!"body", .required, .any) es ∧ ∀ v, (c!"body", v) ∈ es → Keeps F 1 v := by
  simp only [Field1, ← fieldVals_ofMem, ← mem_fieldVals, ← keeps_iff, reduceCtorEq, false_and, false_or, true_implies,
    Conforms, reqField]
  match fieldVals c!"body" es with
  | [] => simp
  | [v] => simp
  | _ :: _ :: _ => simp

theorem decMessage_iff (F : Str → Option Str) (es : List (Str × Json)) :
    (∃ m, decMessage F (.obj es) = some m) ↔ Conforms messageTy (.obj es) ∧
      ∀ p ∈ es, p.1 ≠ c!"recipients" → p.1 ≠ c!"attachments" → Keeps F 1 p.2 := by
  have h1 : (∃ m, decMessage F (.obj es) = some m) ↔
      (∃ r, optField (decVec decRecipient) c!"recipients" es = some r) ∧
      (∃ v, reqField (toValue F 1) c!"body" es = some v) ∧
      (∃ a, dfltField [] (decVec decAttachment) c!"attachments" es = some a) ∧
      buffered F (es.filter fun p => !messageKeys.contains p.1) = true ∧
      (∃ h, decJwmE (es.filter fun p => !messageKeys.contains p.1) = some h) ∧
      ∃ h, decDidcommE ((es.filter fun p => !messageKeys.contains p.1).filter fun p => !jwmKeys.contains p.1) = some h := by
    simp only [decMessage, mapEntries, Option.bind_eq_bind, Option.bind_some, Option.bind_eq_some_iff, Option.pure_def,
      Option.some.injEq, guard_some_iff]
    constructor
    · rintro ⟨_, _, a1, _, a2, _, a3, _, a4, _, a5, _, a6, rfl⟩
      exact ⟨⟨_, a1⟩, ⟨_, a2⟩, ⟨_, a3⟩, a4, ⟨_, a5⟩, _, a6⟩
    · rintro ⟨⟨_, a1⟩, ⟨_, a2⟩, ⟨_, a3⟩, a4, ⟨_, a5⟩, _, a6⟩
      exact ⟨_, _, a1, _, a2, _, a3, (), a4, _, a5, _, a6, rfl⟩
  rw [h1, opt_iff (reads_list decodes_entry), body_iff, dflt_iff (reads_list decodes_attachment), buffered_iff, jwmE_iff,
    didcommE_iff, fields_filter (by decide), fields_filter (by decide), fields_filter (by decide)]
  simp only [messageTy, Conforms, Json.obj.injEq, exists_eq_left', List.cons_append, Fields, fields_append]
  constructor
  · rintro ⟨a1, ⟨a2, a2'⟩, a3, a4, a5, a6, a7⟩
    refine ⟨⟨⟨a1, a2, a3, a5, a6⟩, fun p hp hk => a7 p ?_ ?_⟩, fun p hp hr ha => ?_⟩
    · simp only [List.map_cons, List.map_append, List.mem_cons, List.mem_append, not_or] at hk
      obtain ⟨k1, k2, k3, k4, k5⟩ := hk
      refine List.mem_filter.2 ⟨List.mem_filter.2 ⟨hp, ?_⟩, ?_⟩
      · simp only [messageKeys, List.contains_eq_mem, List.mem_cons, List.not_mem_nil, or_false, Bool.not_eq_true',
          decide_eq_false_iff_not, not_or]
        exact ⟨k1, k2, k3⟩
      · have : p.1 ∉ jwmKeys := k4
        simpa using this
    · simp only [List.map_cons, List.map_append, List.mem_cons, List.mem_append, not_or] at hk
      exact hk.2.2.2.2
    · by_cases hb : p.1 = c!"body"
      · obtain ⟨k, v⟩ := p
        subst hb
        exact a2' v hp
      · refine a4 p hp ?_
        simp only [messageKeys, List.mem_cons, List.not_mem_nil, or_false, not_or]
        exact ⟨hr, hb, ha⟩
  · rintro ⟨⟨⟨a1, a2, a3, a5, a6⟩, a7⟩, a8⟩
    refine ⟨a1, ⟨a2, fun v hv => a8 _ hv (show c!"body" ≠ _ by decide) (show c!"body" ≠ _ by decide)⟩, a3, fun p hp hk => ?_, a5,
      a6, fun p hp hk => ?_⟩
    · simp only [messageKeys, List.mem_cons, List.not_mem_nil, or_false, not_or] at hk
      exact a8 p hp hk.1 hk.2.2
    · obtain ⟨hp, h3⟩ := mem_rest hp
      obtain ⟨hp, h4⟩ := mem_rest hp
      refine a7 p hp ?_
      simp only [messageKeys, List.mem_cons, List.not_mem_nil, or_false, not_or] at h4
      simp only [List.map_cons, List.map_append, List.mem_cons, List.mem_append, not_or]
      exact ⟨h4.1, h4.2.1, h4.2.2, h3, hk⟩

/-- C95.  The texts that are read as a message are exactly the JSON documents of the schema whose body and
headers can be kept as values. -/
theorem C95_message (F : Str → Option Str) (s : Str) :
    (∃ m, Message.ofText F s = some m) ↔ ∃ es, Document (.obj es) s ∧ Conforms messageTy (.obj es) ∧
      ∀ p ∈ es, p.1 ≠ c!"recipients" → p.1 ≠ c!"attachments" → Keeps F 1 p.2 := by
  unfold Message.ofText
  constructor
  · rintro ⟨m, h⟩
    split at h
    · rename_i j hj
      cases j with
      | obj es => exact ⟨es, parseJson_iff.1 hj, (decMessage_iff F es).1 ⟨m, h⟩⟩
      | _ => cases h
    · cases h
  · rintro ⟨es, hd, h⟩
    rw [parseJson_iff.2 hd]
    exact (decMessage_iff F es).2 h

/-- C95.  The texts that are read as an encrypted envelope; a flat recipient is taken exactly if the members
of a recipient entry are all there, and ignored otherwise. -/
theorem C95_jwe (F : Str → Option Str) (s : Str) :
    ((∃ e, Jwe.ofText F s = some e) ↔ ∃ es, Document (.obj es) s ∧ Conforms jweTy (.obj es) ∧
      ∀ p ∈ es, p.1 ∉ jweNames → Keeps F 1 p.2) ∧
    ∀ e es, Jwe.ofText F s = some e → Document (.obj es) s → (e.recipient.isSome ↔ Fields entryFields es) := by
  have key : ∀ es, (∃ e, decJwe F (.obj es) = some e) ↔ Conforms jweTy (.obj es) ∧
      ∀ p ∈ es, p.1 ∉ jweNames → Keeps F 1 p.2 := by
    intro es
    simp only [decJwe, mapEntries, Option.bind_eq_bind, Option.bind_some, Option.bind_eq_some_iff, Option.pure_def,
      Option.some.injEq, guard_some_iff, jweTy, Conforms, Json.obj.injEq, exists_eq_left', Fields,
      ← dflt_iff (a := none) (reads_encoded decodes_header), ← opt_iff decodes_header, ← opt_iff (reads_list decodes_entry),
      ← req_iff reads_str, ← opt_iff reads_str, and_true]
    constructor
    · rintro ⟨_, _, a1, _, a2, _, a3, _, a4, _, a5, _, a6, _, a7, rfl⟩
      exact ⟨⟨⟨_, a1⟩, ⟨_, a2⟩, ⟨_, a3⟩, ⟨_, a4⟩, ⟨_, a5⟩, _, a6⟩, buffered_iff.1 a7⟩
    · rintro ⟨⟨⟨_, a1⟩, ⟨_, a2⟩, ⟨_, a3⟩, ⟨_, a4⟩, ⟨_, a5⟩, _, a6⟩, a7⟩
      exact ⟨_, _, a1, _, a2, _, a3, _, a4, _, a5, _, a6, (), buffered_iff.2 a7, rfl⟩
  refine ⟨?_, ?_⟩
  · unfold Jwe.ofText
    constructor
    · rintro ⟨m, h⟩
      split at h
      · rename_i j hj
        cases j with
        | obj es => exact ⟨es, parseJson_iff.1 hj, (key es).1 ⟨m, h⟩⟩
        | _ => cases h
      · cases h
    · rintro ⟨es, hd, h⟩
      rw [parseJson_iff.2 hd]
      exact (key es).2 h
  · intro e es he hd
    unfold Jwe.ofText at he
    rw [parseJson_iff.2 hd] at he
    simp only [decJwe, mapEntries, Option.bind_eq_bind, Option.bind_some, Option.bind_eq_some_iff, Option.pure_def,
      Option.some.injEq] at he
    obtain ⟨_, _, _, _, _, _, _, _, _, _, _, _, _, _, rfl⟩ := he
    rw [Option.isSome_iff_exists, entryE_iff, fields_filter (by decide)]

/-- C95.  The texts that are read as a signed document: those of the schema in which no signature among
`signatures` is written with escapes. -/
theorem C95_jws (F : Str → Option Str) (s : Str) :
    (∃ e, Jws.ofText F s = some e) ↔ ∃ es, Document (.obj es) s ∧ Conforms jwsTy (.obj es) ∧
      (∀ p ∈ es, p.1 ∉ [c!"payload", c!"signatures"] → Keeps F 1 p.2) ∧
      ∀ jm, DocumentW struck jm s → ∀ es l x v, jm = .obj es → (c!"signatures", .arr l) ∈ es → x ∈ l →
        ((∃ es', x = .obj es' ∧ (c!"signature", v) ∈ es') ∨ ∃ l', x = .arr l' ∧ l'[2]? = some v) →
        v ≠ .bool false := by
  have key : ∀ es, (∃ e, decJws F (.obj es) = some e) ↔ Conforms jwsTy (.obj es) ∧
      ∀ p ∈ es, p.1 ∉ [c!"payload", c!"signatures"] → Keeps F 1 p.2 := by
    intro es
    simp only [decJws, mapEntries, Option.bind_eq_bind, Option.bind_some, Option.bind_eq_some_iff, Option.pure_def,
      Option.some.injEq, guard_some_iff, jwsTy, Conforms, Json.obj.injEq, exists_eq_left', Fields,
      ← opt_iff (reads_list decodes_signature), ← req_iff reads_str, and_true]
    constructor
    · rintro ⟨_, _, a1, _, a2, _, a7, rfl⟩
      exact ⟨⟨⟨_, a1⟩, _, a2⟩, buffered_iff.1 a7⟩
    · rintro ⟨⟨⟨_, a1⟩, _, a2⟩, a7⟩
      exact ⟨_, _, a1, _, a2, (), buffered_iff.2 a7, rfl⟩
  constructor
  · rintro ⟨e, he⟩
    obtain ⟨j, jm, e', hj, hjm, hd, hb⟩ := ofText_decJws he
    cases j with
    | obj es =>
      obtain ⟨h1, h2⟩ := (key es).1 ⟨e', hd⟩
      refine ⟨es, parseJson_iff.1 hj, h1, h2, ?_⟩
      rintro jm' hjm' es' l x v rfl hl hx hv rfl
      rw [parseStruck_iff.2 hjm'] at hjm
      cases hjm
      simp only [borrowed, mapEntries, Option.bind_eq_bind, Option.bind_some, Option.bind_eq_some_iff] at hb
      obtain ⟨o, ho, -⟩ := hb
      unfold optField at ho
      have hm := mem_fieldVals.2 hl
      split at ho
      · rename_i e; rw [e] at hm; cases hm
      · rename_i v e
        rw [e] at hm
        obtain rfl := List.mem_singleton.1 hm
        simp only [decOpt, decVec, Option.map_eq_some_iff] at ho
        obtain ⟨r, hr, -⟩ := ho
        obtain ⟨b, hb⟩ := (decAll_ex l).1 ⟨r, hr⟩ x hx
        exact sigBytes_struck hb hv
      · cases ho
    | _ => cases hd
  · rintro ⟨es, hd, h1, h2, h3⟩
    obtain ⟨e, he⟩ := (key es).2 ⟨h1, h2⟩
    obtain ⟨jm, hjm, htw⟩ := struck_document hd
    cases htw with
    | @obj _ es' t1 t2 =>
      have hs : ∃ sigs, optField (decVec decSignature) c!"signatures" es = some sigs := by
        simp only [decJws, mapEntries, Option.bind_eq_bind, Option.bind_some, Option.bind_eq_some_iff] at he
        obtain ⟨_, _, sigs, hs, -⟩ := he
        exact ⟨sigs, hs⟩
      obtain ⟨sigs, hs⟩ := hs
      have hb := signatures_twin (Q := fun v => v ≠ .bool false) (by
        rintro s v b ⟨e, rfl⟩ hq hb
        cases e with
        | true => exact absurd rfl hq
        | false => exact hb) ⟨t1, t2⟩ (fun l x v a1 a2 a3 => h3 _ hjm es' l x v rfl a1 a2 a3) hs
      obtain ⟨o, ho⟩ := Option.isSome_iff_exists.1 hb
      simp only [Jws.ofText, parseJson_iff.2 hd, parseStruck_iff.2 hjm, Option.bind_eq_bind, Option.bind_some, he, borrowed,
        mapEntries, ho]
      exact ⟨_, rfl⟩

/-- C95.  The trees that are read as a key, a header, a recipient entry, an attachment, claims about a former
DID, a thread, the body of a forward message and a problem report. -/
theorem C95_parts (j : Json) :
    ((∃ a, decJwk j = some a) ↔ Conforms keyTy j) ∧ ((∃ a, decJwm j = some a) ↔ Conforms headerTy j) ∧
    ((∃ a, decRecipient j = some a) ↔ Conforms entryTy j) ∧ ((∃ a, decAttachment j = some a) ↔ Conforms attachmentTy j) ∧
    ((∃ a, decPrior j = some a) ↔ Conforms priorTy j) ∧ ((∃ a, decThread j = some a) ↔ Conforms threadTy j) ∧
    ((∃ a, decMediated j = some a) ↔ Conforms forwardTy j) ∧ ((∃ a, decProblem j = some a) ↔ Conforms problemTy j) :=
  ⟨decodes_key j, decodes_header j, decodes_entry j, decodes_attachment j, decodes_prior j, decodes_thread j,
    decodes_forward j, decodes_problem j⟩

/-- A message written by hand: another order, white space, a name as an object, a struct as an array. -/
def handMessage : Str :=
  c!" {\"to\":[\"did:e:b\"],\"x-n\":\"1\",\"body\":{\"b\":1,\"a\":[2.5]},\"id\":\"1\",\"x-n\":\"2\"," ++
  c!"\"typ\":{\"application/didcomm-plain+json\":null},\"from_prior\":[null,\"did:e:p\"]," ++
  c!"\"created_time\":007,\"type\":\"t\"}"

/-- The number `007` is no JSON number. -/
example : Message.ofText (fun t => some t) handMessage = none := by decide +kernel

/-- Corrected, it conforms and is read. -/
def handMessage2 : Str :=
  c!" {\"to\":[\"did:e:b\"],\"x-n\":\"1\",\"body\":{\"b\":1,\"a\":[2.5]},\"id\":\"1\",\"x-n\":\"2\"," ++
  c!"\"typ\":{\"application/didcomm-plain+json\":null},\"from_prior\":[null,\"did:e:p\"]," ++
  c!"\"created_time\":7,\"type\":\"t\"}"

example : ∃ es, Document (.obj es) handMessage2 ∧ Conforms messageTy (.obj es) := by
  have h : ∃ m, Message.ofText (fun t => some t) handMessage2 = some m :=
    Option.isSome_iff_exists.1 (by decide +kernel)
  obtain ⟨es, h1, h2, -⟩ := (C95_message _ _).1 h
  exact ⟨es, h1, h2⟩

/-- A member that is not a string keeps a document from being a message. -/
example : ¬ Conforms messageTy (.obj [(c!"id", .str []), (c!"type", .str []), (c!"to", .arr []), (c!"body", .null),
    (c!"typ", .str c!"application/didcomm-plain+json"), (c!"x-n", .bool true)]) := by
  intro h
  simp only [messageTy, Conforms, Json.obj.injEq, exists_eq_left'] at h
  obtain ⟨s, hs⟩ := h.2 (c!"x-n", .bool true) (by simp) (show c!"x-n" ∉ _ by decide)
  cases hs

end Verif
