import Verif.Lemma.Json
import Verif.Lemma.Base64
import Verif.Lemma.Serde
import Verif.Model.Envelope
import Verif.Spec.Signatures

/-! # Borrowing of signature strings -/

namespace Verif

open Spec

/-- Trees of one shape, with strings related by `R`. -/
inductive Twin (R : Str → Json → Prop) : Json → Json → Prop
  | null : Twin R .null .null
  | bool (b) : Twin R (.bool b) (.bool b)
  | num (t) : Twin R (.num t) (.num t)
  | str {s v} : R s v → Twin R (.str s) v
  | arr {l l'} : l.length = l'.length → (∀ (i : Nat) (a b : Json), l[i]? = some a → l'[i]? = some b → Twin R a b) →
      Twin R (.arr l) (.arr l')
  | obj {es es'} : es.map (·.1) = es'.map (·.1) →
      (∀ (i : Nat) (a b : Str × Json), es[i]? = some a → es'[i]? = some b → Twin R a.2 b.2) → Twin R (.obj es) (.obj es')

/-- Lists of one shape. -/
def TwinL (R : Str → Json → Prop) (l l' : List Json) : Prop :=
  l.length = l'.length ∧ ∀ (i : Nat) (a b : Json), l[i]? = some a → l'[i]? = some b → Twin R a b

/-- Members of one shape. -/
def TwinM (R : Str → Json → Prop) (es es' : List (Str × Json)) : Prop :=
  es.map (·.1) = es'.map (·.1) ∧ ∀ (i : Nat) (a b : Str × Json), es[i]? = some a → es'[i]? = some b → Twin R a.2 b.2

variable {R : Str → Json → Prop}

theorem twinL_nil {l : List Json} (h : TwinL R [] l) : l = [] :=
  List.length_eq_zero_iff.1 h.1.symm

theorem twinL_cons {a : Json} {l l' : List Json} (h : TwinL R (a :: l) l') :
    ∃ b r, l' = b :: r ∧ Twin R a b ∧ TwinL R l r := by
  cases l' with
  | nil => cases h.1
  | cons b r =>
    exact ⟨b, r, rfl, h.2 0 a b rfl rfl, Nat.succ.inj h.1, fun i x y hx hy => h.2 (i + 1) x y hx hy⟩

theorem twinL_of {a b : Json} {l r : List Json} (h : Twin R a b) (hl : TwinL R l r) :
    TwinL R (a :: l) (b :: r) :=
  ⟨congrArg Nat.succ hl.1, fun i x y hx hy => by
    cases i with
    | zero => cases hx; cases hy; exact h
    | succ i => exact hl.2 i x y hx hy⟩

theorem twinM_nil {l : List (Str × Json)} (h : TwinM R [] l) : l = [] := by
  have := congrArg List.length h.1
  exact List.length_eq_zero_iff.1 (by simpa using this.symm)

theorem twinM_cons {a : Str × Json} {l l' : List (Str × Json)} (h : TwinM R (a :: l) l') :
    ∃ v r, l' = (a.1, v) :: r ∧ Twin R a.2 v ∧ TwinM R l r := by
  cases l' with
  | nil => have := congrArg List.length h.1; cases this
  | cons b r =>
    obtain ⟨k, v⟩ := b
    have h1 := h.1
    simp only [List.map_cons, List.cons.injEq] at h1
    exact ⟨v, r, by rw [h1.1], h.2 0 a (k, v) rfl rfl, h1.2, fun i x y hx hy => h.2 (i + 1) x y hx hy⟩

theorem twinM_of {k : Str} {a b : Json} {l r : List (Str × Json)} (h : Twin R a b) (hl : TwinM R l r) :
    TwinM R ((k, a) :: l) ((k, b) :: r) :=
  ⟨by simp [hl.1], fun i x y hx hy => by
    cases i with
    | zero => cases hx; cases hy; exact h
    | succ i => exact hl.2 i x y hx hy⟩

theorem twin_fieldVals (k : Str) : ∀ {es es' : List (Str × Json)}, TwinM R es es' →
    TwinL R (fieldVals k es) (fieldVals k es')
  | [], es', h => by rw [twinM_nil h]; exact ⟨rfl, fun i a b ha _ => by cases ha⟩
  | (k', v) :: es, es', h => by
    obtain ⟨w, r, rfl, h1, h2⟩ := twinM_cons h
    by_cases hk : k' = k
    · subst hk
      rw [fieldVals_cons_self, fieldVals_cons_self]
      exact twinL_of h1 (twin_fieldVals k' h2)
    · rw [fieldVals_cons_ne hk, fieldVals_cons_ne hk]
      exact twin_fieldVals k h2

theorem twinM_zip : ∀ (fs : List Str) {l l' : List Json}, TwinL R l l' → TwinM R (fs.zip l) (fs.zip l')
  | [], _, _, _ => ⟨rfl, fun i a b ha _ => by cases ha⟩
  | f :: fs, [], l', h => by rw [twinL_nil h]; exact ⟨rfl, fun i a b ha _ => by cases ha⟩
  | f :: fs, a :: l, l', h => by
    obtain ⟨b, r, rfl, h1, h2⟩ := twinL_cons h
    exact twinM_of h1 (twinM_zip fs h2)

/-- Only strings decode to bytes. -/
theorem decBufferB64_some {j : Json} {b : Bytes} (h : decBufferB64 j = some b) :
    ∃ s, j = .str s ∧ b64Decode s = some b := by
  cases j <;> first | cases h | exact ⟨_, rfl, h⟩

/-- The relation is good enough to read a signature from `v`. -/
def Reads (R : Str → Json → Prop) (Q : Json → Prop) : Prop :=
  ∀ s v b, R s v → Q v → b64Decode s = some b → decBufferB64 v = some b

theorem reads_twin {Q : Json → Prop} (hR : Reads R Q) {v v' : Json} {b : Bytes} (h : Twin R v v') (hq : Q v')
    (hb : decBufferB64 v = some b) : decBufferB64 v' = some b := by
  obtain ⟨s, rfl, hs⟩ := decBufferB64_some hb
  cases h with
  | str hr => exact hR s v' b hr hq hs

theorem dfltField_twin {Q : Json → Prop} (hR : Reads R Q) {k : Str} {es es' : List (Str × Json)} {b : Bytes}
    (h : TwinM R es es') (hq : ∀ v, (k, v) ∈ es' → Q v)
    (hb : dfltField [] decBufferB64 k es = some b) : dfltField [] decBufferB64 k es' = some b := by
  have hv := twin_fieldVals k h
  have hm : ∀ v ∈ fieldVals k es', Q v := fun v hv => hq v (mem_fieldVals.1 hv)
  unfold dfltField at hb ⊢
  split at hb
  · rename_i e
    rw [e] at hv
    rw [twinL_nil hv]
    exact hb
  · rename_i e
    rw [e] at hv
    obtain ⟨v', r, e', h1, h2⟩ := twinL_cons hv
    rw [twinL_nil h2] at e'
    rw [e'] at hm ⊢
    exact reads_twin hR h1 (hm v' (by simp)) hb
  · cases hb

theorem sigBytes_twin {Q : Json → Prop} (hR : Reads R Q) {x x' : Json} {s : Signature} (h : Twin R x x')
    (hq : ∀ v, ((∃ es, x' = .obj es ∧ (c!"signature", v) ∈ es) ∨ ∃ l, x' = .arr l ∧ l[2]? = some v) → Q v)
    (hs : decSignature x = some s) : sigBytes x' = some s.signature := by
  have key : ∀ es es', TwinM R es es' → (∀ v, (c!"signature", v) ∈ es' → Q v) → decSignatureE es = some s →
      dfltField [] decBufferB64 c!"signature" es' = some s.signature := by
    intro es es' ht hq hd
    simp only [decSignatureE, Option.bind_eq_bind, Option.bind_eq_some_iff, Option.pure_def,
      Option.some.injEq] at hd
    obtain ⟨_, -, _, -, b, hb, rfl⟩ := hd
    exact dfltField_twin hR ht hq hb
  simp only [decSignature, Option.bind_eq_bind, Option.bind_eq_some_iff] at hs
  obtain ⟨es, he, hd⟩ := hs
  cases h with
  | obj h1 h2 =>
    cases he
    simp only [sigBytes, structEntries, Option.bind_eq_bind, Option.bind_some]
    exact key _ _ ⟨h1, h2⟩ (fun v hv => hq v (.inl ⟨_, rfl, hv⟩)) hd
  | @arr l l' h1 h2 =>
    simp only [structEntries] at he
    split at he
    · rename_i hl
      cases he
      simp only [sigBytes, structEntries, ← h1, if_pos hl, Option.bind_eq_bind, Option.bind_some]
      refine key _ _ (twinM_zip _ ⟨h1, h2⟩) (fun v hv => hq v (.inr ⟨_, rfl, ?_⟩)) hd
      match l' with
      | [] => cases hv
      | [a] => simp at hv
      | [a, b] => simp at hv
      | a :: b :: c :: r =>
        simp at hv
        rw [hv]; rfl
    · cases he
  | null => cases he
  | bool => cases he
  | num => cases he
  | str => cases he

theorem decAll_twin {α β : Type} {d : Json → Option α} {d' : Json → Option β} :
    ∀ {l l' : List Json} {r : List α}, TwinL R l l' →
      (∀ x x' a, x' ∈ l' → Twin R x x' → d x = some a → (d' x').isSome) → decAll d l = some r →
      (decAll d' l').isSome
  | [], l', _, h, _, _ => by rw [twinL_nil h]; rfl
  | a :: l, l', r, h, hd, hr => by
    obtain ⟨b, m, rfl, h1, h2⟩ := twinL_cons h
    simp only [decAll] at hr ⊢
    cases ha : d a with
    | none => rw [ha] at hr; cases hr
    | some x =>
      cases hl : decAll d l with
      | none => rw [ha, hl] at hr; cases hr
      | some y =>
        have e1 := hd a b x (by simp) h1 ha
        have e2 := decAll_twin h2 (fun x x' a hx => hd x x' a (List.mem_cons_of_mem _ hx)) hl
        cases h3 : d' b with
        | none => rw [h3] at e1; cases e1
        | some z =>
          cases h4 : decAll d' m with
          | none => rw [h4] at e2; cases e2
          | some w => rfl

/-- The elements of `signatures` can be borrowed when none is struck. -/
theorem signatures_twin {Q : Json → Prop} (hR : Reads R Q) {es es' : List (Str × Json)} {sigs : Option (List Signature)}
    (ht : TwinM R es es')
    (hq : ∀ l x v, (c!"signatures", .arr l) ∈ es' → x ∈ l →
      ((∃ es', x = .obj es' ∧ (c!"signature", v) ∈ es') ∨ ∃ l', x = .arr l' ∧ l'[2]? = some v) → Q v)
    (hs : optField (decVec decSignature) c!"signatures" es = some sigs) :
    (optField (decVec sigBytes) c!"signatures" es').isSome := by
  have hv := twin_fieldVals c!"signatures" ht
  unfold optField at hs ⊢
  split at hs
  · rename_i e
    rw [e] at hv
    rw [twinL_nil hv]
    rfl
  · rename_i v e
    rw [e] at hv
    obtain ⟨v', r, e', h3, h4⟩ := twinL_cons hv
    rw [twinL_nil h4] at e'
    have hmem : (c!"signatures", v') ∈ es' := mem_fieldVals.1 (by rw [e']; simp)
    rw [e']
    cases h3 with
    | null => rfl
    | bool => cases hs
    | num => cases hs
    | str => cases hs
    | @arr l l' h5 h6 =>
      simp only [decOpt, decVec, Option.map_eq_some_iff] at hs ⊢
      obtain ⟨r, hr, -⟩ := hs
      have := decAll_twin (d := decSignature) (d' := sigBytes) (R := R) ⟨h5, h6⟩ (fun x x' a hx hxx ha => by
        rw [sigBytes_twin hR hxx (fun v hv => hq l' x' v hmem hx hv) ha]; rfl) hr
      simpa using this
    | obj => cases hs
  · cases hs

/-- When every signature can be borrowed, the JWS is what its tree says. -/
theorem borrowed_twin {Q : Json → Prop} (hR : Reads R Q) {F : Str → Option Str}
    {j jm : Json} {jws : Jws} (h : Twin R j jm) (hq : ∀ v, SignatureAt jm v → Q v) (hd : decJws F j = some jws) :
    borrowed jm jws = some jws := by
  simp only [decJws, Option.bind_eq_bind, Option.bind_eq_some_iff, Option.pure_def, Option.some.injEq] at hd
  obtain ⟨es, he, p, -, sigs, hs, -, -, rfl⟩ := hd
  cases h with
  | @obj _ es' h1 h2 =>
    cases he
    have ht : TwinM R es es' := ⟨h1, h2⟩
    have e1 := signatures_twin hR ht (fun l x v h1 h2 h3 => hq v ⟨_, rfl, .inr ⟨l, x, h1, h2, h3⟩⟩) hs
    have e2 : ∀ s, decSignatureE (es.filter fun p => !jwsKeys.contains p.1) = some s →
        dfltField [] decBufferB64 c!"signature" es' = some s.signature := by
      intro s hd
      simp only [decSignatureE, Option.bind_eq_bind, Option.bind_eq_some_iff, Option.pure_def,
        Option.some.injEq] at hd
      obtain ⟨_, -, _, -, b, hb, rfl⟩ := hd
      refine dfltField_twin hR ht (fun v hv => hq v ⟨_, rfl, .inl hv⟩) ?_
      unfold dfltField at hb ⊢
      rwa [fieldVals_filter _ (fun v => by simp (config := { decide := true }))] at hb
    obtain ⟨x, hx⟩ := Option.isSome_iff_exists.1 e1
    simp only [borrowed, mapEntries, Option.bind_eq_bind, Option.bind_some, hx, Option.pure_def, Option.some.injEq,
      Jws.mk.injEq, true_and, and_true]
    cases h7 : decSignatureE (es.filter fun p => !jwsKeys.contains p.1) with
    | none => cases dfltField [] decBufferB64 c!"signature" es' <;> rfl
    | some s => rw [e2 s h7]; rfl
  | null => cases he
  | bool => cases he
  | num => cases he
  | str => cases he
  | arr => cases he

/-! ## Printed text -/

theorem esc_b64 {s : Str} {b : Bytes} (h : b64Decode s = some b) : (s.flatMap escChar).contains '\\' = false := by
  have key : ∀ n, n < 64 → ¬ ('\\' ∈ escChar (b64Char n)) := by decide
  have hall : ∀ c ∈ b64Encode b, ¬ ('\\' ∈ escChar c) := by
    intro c hc
    obtain ⟨n, hn, rfl⟩ := b64Encode_chars b c hc
    exact key n hn
  obtain ⟨p, rfl, -⟩ := b64Decode_sound h
  rw [Bool.eq_false_iff, Ne, List.contains_iff_mem, List.mem_flatMap]
  rintro ⟨c, hc, hm⟩
  rcases List.mem_append.1 hc with h1 | h1
  · exact hall c h1 hm
  · rw [(List.mem_replicate.1 h1).2] at hm
    revert hm; decide

theorem twin_print (j : Json) :
    Twin (fun s v => v = struck ((s.flatMap escChar).contains '\\') s) j (mapStr (List.flatMap escChar) struck j) := by
  refine Json.rec
    (motive_1 := fun j => Twin (fun s v => v = struck ((s.flatMap escChar).contains '\\') s) j (mapStr (List.flatMap escChar) struck j))
    (motive_2 := fun l => TwinL (fun s v => v = struck ((s.flatMap escChar).contains '\\') s) l (mapStrL (List.flatMap escChar) struck l))
    (motive_3 := fun es => TwinM (fun s v => v = struck ((s.flatMap escChar).contains '\\') s) es (mapStrM (List.flatMap escChar) struck es))
    (motive_4 := fun p => Twin (fun s v => v = struck ((s.flatMap escChar).contains '\\') s) p.2 (mapStr (List.flatMap escChar) struck p.2))
    ?_ ?_ ?_ ?_ ?_ ?_ ?_ ?_ ?_ ?_ ?_ j
  · exact .null
  · intro b; exact .bool b
  · intro t; exact .num t
  · intro s; exact .str rfl
  · intro l ih; exact .arr ih.1 ih.2
  · intro l ih; exact .obj ih.1 ih.2
  · exact ⟨rfl, fun i a b ha _ => by cases ha⟩
  · intro a l h1 h2; exact twinL_of h1 h2
  · exact ⟨rfl, fun i a b ha _ => by cases ha⟩
  · intro a l h1 h2; exact twinM_of (k := a.1) h1 h2
  · intro k v h; exact h

/-- Printed text never has an escape in a string that decodes as base64, so reading a JWS from it is
decoding its tree. -/
theorem jws_ofText_print {F : Str → Option Str} {j : Json} (h : NumsOk j) :
    Jws.ofText F (printJson j) = decJws F j := by
  simp only [Jws.ofText, parseJson_print h, parseStruck_print h, Option.bind_eq_bind, Option.bind_some]
  cases hd : decJws F j with
  | none => rfl
  | some jws =>
    refine borrowed_twin (Q := fun _ => True) ?_ (twin_print j) (fun _ _ => trivial) hd
    intro s v b hr _ hb
    rw [hr, esc_b64 hb]
    exact hb

theorem jws_ofBytes_utf8 {F : Str → Option Str} (s : Str) : Jws.ofBytes F (utf8 s) = Jws.ofText F s := by
  unfold Jws.ofBytes
  rw [utf8Decode_utf8, Option.bind_some]

theorem jws_ofBytes_print {F : Str → Option Str} {j : Json} (h : NumsOk j) :
    Jws.ofBytes F (utf8 (printJson j)) = decJws F j := by
  rw [jws_ofBytes_utf8, jws_ofText_print h]

/-! ## Any text -/

/-- The two readings of one text. -/
theorem twin_text {mk : Bool → Str → Json} {j : Json} {t : Str} (h : Text j t) :
    ∃ jm, TextW mk jm t ∧ Twin (fun s v => ∃ e, v = mk e s) j jm := by
  refine TextW.rec
    (motive_1 := fun j t _ => ∃ jm, TextW mk jm t ∧ Twin (fun s v => ∃ e, v = mk e s) j jm)
    (motive_2 := fun l t _ => ∃ l', ElemsW mk l' t ∧ TwinL (fun s v => ∃ e, v = mk e s) l l')
    (motive_3 := fun es t _ => ∃ es', MembersW mk es' t ∧ TwinM (fun s v => ∃ e, v = mk e s) es es')
    ?_ ?_ ?_ ?_ ?_ ?_ ?_ ?_ ?_ ?_ ?_ ?_ ?_ h
  · exact ⟨_, .null, .null⟩
  · exact ⟨_, .true, .bool _⟩
  · exact ⟨_, .false, .bool _⟩
  · intro tok h; exact ⟨_, .num h, .num _⟩
  · intro s t h; exact ⟨_, .str h, .str ⟨_, rfl⟩⟩
  · intro w h; exact ⟨_, .arrNil h, .arr rfl fun i a b ha _ => by cases ha⟩
  · rintro l t - ⟨l', h1, h2⟩; exact ⟨_, .arr h1, .arr h2.1 h2.2⟩
  · intro w h; exact ⟨_, .objNil h, .obj rfl fun i a b ha _ => by cases ha⟩
  · rintro l t - ⟨l', h1, h2⟩; exact ⟨_, .obj h1, .obj h2.1 h2.2⟩
  · rintro j w t w' hw - hw' ⟨jm, h1, h2⟩
    exact ⟨_, .one hw h1 hw', twinL_of h2 ⟨rfl, fun i a b ha _ => by cases ha⟩⟩
  · rintro j w t w' l r hw - hw' - ⟨jm, h1, h2⟩ ⟨l', h3, h4⟩
    exact ⟨_, .cons hw h1 hw' h3, twinL_of h2 h4⟩
  · rintro k v w0 ks w1 w2 t w3 a1 a2 a3 a4 - a5 ⟨jm, h1, h2⟩
    exact ⟨_, .one a1 a2 a3 a4 h1 a5, twinM_of h2 ⟨rfl, fun i a b ha _ => by cases ha⟩⟩
  · rintro k v w0 ks w1 w2 t w3 es r a1 a2 a3 a4 - a5 - ⟨jm, h1, h2⟩ ⟨l', h3, h4⟩
    exact ⟨_, .cons a1 a2 a3 a4 h1 a5 h3, twinM_of h2 h4⟩

/-- Every document also has the struck reading. -/
theorem struck_document {j : Json} {s : Str} (h : Document j s) :
    ∃ jm, DocumentW struck jm s ∧ Twin (fun s v => ∃ e, v = struck e s) j jm := by
  obtain ⟨w, t, w', hw, ht, hw', rfl⟩ := h
  obtain ⟨jm, h1, h2⟩ := twin_text (mk := struck) ht
  exact ⟨jm, ⟨w, t, w', hw, h1, hw', rfl⟩, h2⟩

theorem parseStruck_some {s : Str} {j : Json} (h : parseJson s = some j) : ∃ jm, parseStruck s = some jm := by
  obtain ⟨jm, h1, -⟩ := struck_document (parseJson_iff.1 h)
  exact ⟨jm, parseStruck_iff.2 h1⟩

/-- When no signature is written with escapes, reading a JWS is decoding its tree. -/
theorem jws_ofText_plain {F : Str → Option Str} {s : Str} {j : Json} (h : parseJson s = some j)
    (hp : SignaturesPlain s) : Jws.ofText F s = decJws F j := by
  obtain ⟨jm, h1, h2⟩ := struck_document (parseJson_iff.1 h)
  simp only [Jws.ofText, h, parseStruck_iff.2 h1, Option.bind_eq_bind, Option.bind_some]
  cases hd : decJws F j with
  | none => rfl
  | some jws =>
    refine borrowed_twin (Q := fun v => v ≠ .bool false) ?_ h2 (fun v hv => hp jm h1 v hv) hd
    rintro s v b ⟨e, rfl⟩ hq hb
    cases e with
    | true => exact absurd rfl hq
    | false => exact hb

theorem ofText_decJws {F : Str → Option Str} {s : Str} {jws : Jws} (h : Jws.ofText F s = some jws) :
    ∃ j jm jws', parseJson s = some j ∧ parseStruck s = some jm ∧ decJws F j = some jws' ∧
      borrowed jm jws' = some jws := by
  simp only [Jws.ofText, Option.bind_eq_bind, Option.bind_eq_some_iff] at h
  obtain ⟨j, h1, jm, h2, jws', h3, h4⟩ := h
  exact ⟨j, jm, jws', h1, h2, h3, h4⟩

theorem borrowed_eq {jm : Json} {jws jws' : Jws} (h : borrowed jm jws = some jws') :
    jws' = jws ∨ jws' = { jws with signature := none } := by
  simp only [borrowed, Option.bind_eq_bind, Option.bind_eq_some_iff, Option.pure_def, Option.some.injEq] at h
  obtain ⟨es, -, _, -, rfl⟩ := h
  cases dfltField [] decBufferB64 c!"signature" es
  · exact .inr rfl
  · exact .inl rfl

end Verif
