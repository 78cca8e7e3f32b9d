import Verif.Lemma.Headers
import Verif.Model.Encryption
import Verif.Spec.Setters

/-!
# Properties of the message API

C08 – C14, C40, C49, C52, C56.
-/

namespace Verif

open Spec

/-! ## C08: recipients -/

theorem emptyPos_none {l : List Str} (h : Message.emptyPos l = none) :
    l.filter (fun s => !(s == [])) = l := by
  rw [Message.emptyPos, List.findIdx?_eq_none_iff] at h
  rw [List.filter_eq_self]
  intro a ha
  simp [h a ha]

theorem emptyPos_some {l : List Str} {a : Nat} (h : Message.emptyPos l = some a) :
    (l.eraseIdx a).filter (fun s => !(s == [])) = l.filter (fun s => !(s == [])) ∧
      (l.eraseIdx a).length + 1 = l.length := by
  unfold Message.emptyPos at h
  induction l generalizing a with
  | nil => simp at h
  | cons s l ih =>
    rw [List.findIdx?_cons] at h
    by_cases hs : (s == []) = true
    · rw [if_pos hs] at h
      obtain rfl : (0 : Nat) = a := Option.some.inj h
      simp only [List.eraseIdx_zero, List.tail_cons, List.filter_cons, hs, List.length_cons]
      exact ⟨rfl, trivial⟩
    · rw [if_neg hs] at h
      cases hr : l.findIdx? (· == []) with
      | none => rw [hr] at h; cases h
      | some b =>
        rw [hr] at h
        obtain rfl : b + 1 = a := Option.some.inj h
        have := ih hr
        refine ⟨?_, ?_⟩
        · simp only [List.eraseIdx_cons_succ, List.filter_cons, this.1]
        · simp only [List.eraseIdx_cons_succ, List.length_cons]
          omega

/-- The loop of `to` ends with no empty entry left. -/
theorem dropEmpty_eq (n : Nat) (l : List Str) (h : l.length ≤ n) :
    Message.dropEmpty n l = l.filter (fun s => !(s == [])) := by
  induction n generalizing l with
  | zero => cases l <;> simp_all [Message.dropEmpty]
  | succ n ih =>
    unfold Message.dropEmpty
    split
    · rename_i a ha
      have := emptyPos_some ha
      rw [ih _ (by omega), this.1]
    · rename_i ha
      exact (emptyPos_none ha).symm

/-- More passes do not change the result: the loop has terminated. -/
theorem dropEmpty_stable (n : Nat) (l : List Str) (h : l.length ≤ n) :
    Message.dropEmpty n l = Message.dropEmpty l.length l := by
  rw [dropEmpty_eq n l h, dropEmpty_eq _ l (Nat.le_refl _)]

/-- C08.  One `.to(..)` call: previous recipients, then the given ones, without empty strings; all else
unchanged.  (The number of passes of the clean-up loop does not matter beyond the list length.) -/
theorem C08_to_appends (m : Message) (to : List Str) :
    m.addTo to = { m with didcomm := { m.didcomm with
      to := (m.didcomm.to ++ to).filter (fun s => s ≠ []) } } ∧
    ∀ n, (m.didcomm.to ++ to).length ≤ n →
      Message.dropEmpty n (m.didcomm.to ++ to) = (m.addTo to).didcomm.to := by
  have e : (fun s : Str => !(s == [])) = fun s => decide (s ≠ []) := by
    funext s; cases s <;> rfl
  constructor
  · simp only [Message.addTo]
    rw [dropEmpty_eq _ _ (Nat.le_refl _), e]
  · intro n hn
    rw [dropEmpty_stable n _ hn]; rfl

/-- C08.  Any sequence of `.to(..)` calls (at least one). -/
theorem C08_to_sequence (m : Message) (c : List Str) (calls : List (List Str)) :
    (c :: calls).foldl Message.addTo m = { m with didcomm := { m.didcomm with
      to := (m.didcomm.to ++ (c :: calls).flatten).filter (fun s => s ≠ []) } } := by
  induction calls generalizing m c with
  | nil => simp [(C08_to_appends m c).1]
  | cons d calls ih =>
    have h := ih (m.addTo c) d
    simp only [List.foldl_cons] at h ⊢
    rw [h, (C08_to_appends m c).1]
    simp [List.filter_append, List.filter_filter]

example : ((Message.new c!"1").addTo [c!"did:a:b", [], c!"did:c:d"]).didcomm.to =
    [c!"did:a:b", c!"did:c:d"] := by decide

/-! ## C09: custom headers -/

/-- A sequence of `add_header_field` calls. -/
def addFields (m : Message) (l : List (Str × Str)) : Message :=
  l.foldl (fun m p => m.addHeaderField p.1 p.2) m

theorem get_addFields (l : List (Str × Str)) (m : Message) (k : Str) :
    (addFields m l).didcomm.other.get k =
      if k = [] then m.didcomm.other.get k else lastWrite k (m.didcomm.other.get k) l := by
  induction l generalizing m with
  | nil => simp [addFields, lastWrite]
  | cons p l ih =>
    have hm : addFields m (p :: l) = addFields (m.addHeaderField p.1 p.2) l := rfl
    rw [hm, ih]
    obtain ⟨k', v⟩ := p
    have hg : ((m.addHeaderField k' v).didcomm.other).get k =
        if k' = [] then m.didcomm.other.get k
        else if k = k' then some v else m.didcomm.other.get k := by
      unfold Message.addHeaderField
      by_cases h : k' = []
      · simp [h]
      · simp only [h, if_false]
        exact HMap.get_insert _ _ _ _
    by_cases hk : k = []
    · subst hk
      rw [if_pos rfl, if_pos rfl, hg]
      by_cases h : k' = []
      · simp [h]
      · rw [if_neg h, if_neg (fun e => h e.symm)]
    · rw [if_neg hk, if_neg hk, hg]
      by_cases h : k' = []
      · subst h; simp [lastWrite, Ne.symm hk]
      · rw [if_neg h]
        simp only [lastWrite]
        by_cases e : k' = k
        · simp [e]
        · simp [e, Ne.symm e]

/-- C09.  After any sequence of `add_header_field` calls: the iterator yields each key once, in
whatever order, and yields `(k, v)` exactly if `v` is the last value written to the non-empty key `k`
(or was there before and not overwritten; the empty key is never written). -/
theorem C09_custom_headers (m : Message) (calls : List (Str × Str))
    (o : List (Str × Str) → List (Str × Str)) (ho : ∀ l, (o l).Perm l) :
    (((addFields m calls).applicationParams o).map (·.1)).Nodup ∧
    (∀ k v, (k, v) ∈ (addFields m calls).applicationParams o ↔
      (if k = [] then m.didcomm.other.get k else lastWrite k (m.didcomm.other.get k) calls) = some v) ∧
    { addFields m calls with didcomm := { (addFields m calls).didcomm with
        other := m.didcomm.other } } = m := by
  refine ⟨?_, ?_, ?_⟩
  · exact perm_nodup_keys (ho _) (sorted_nodup (addFields m calls).didcomm.other.sorted)
  · intro k v
    rw [← get_addFields, ← HMap.mem_entries]
    exact (ho _).mem_iff
  · induction calls generalizing m with
    | nil => rfl
    | cons p l ih =>
      have hm : addFields m (p :: l) = addFields (m.addHeaderField p.1 p.2) l := rfl
      have h := ih (m.addHeaderField p.1 p.2)
      rw [hm]
      unfold Message.addHeaderField at h ⊢
      by_cases hp : p.1 = []
      · simp only [hp, if_true] at h ⊢; exact h
      · simp only [hp, if_false] at h ⊢
        injection h with h1 h2 h3 h4 h5 h6 h7
        injection h2 with g1 g2 g3 g4 g5 g6 g7 g8 g9 g10 g11
        cases m; rename_i jwm dc _ _ _ _ _
        cases dc
        simp_all

example : (addFields (Message.new c!"1") [(c!"a", c!"1"), ([], c!"2"), (c!"a", c!"3")]).applicationParams
    List.reverse = [(c!"a", c!"3")] := by decide

/-! ## C10: replies -/

/-- C10.  `m.reply_to(x)`: the sender is appended to `to` (an empty entry if `x` has no `from`); `thid`,
`pthid` and `~thread` follow the thread of `x`; nothing else changes. -/
theorem C10_reply_to (m x : Message) :
    (m.replyTo x).didcomm.to = m.didcomm.to ++ [x.didcomm.from.getD []] ∧
    (∀ t, x.didcomm.thread = some t → t.thid ≠ x.didcomm.id →
      (∀ r, t.receivedOrders = some r → ∀ p ∈ r.entries, p.2 = 0) →
      (m.replyTo x).didcomm.thid = some t.thid ∧
      (m.replyTo x).didcomm.pthid = m.didcomm.pthid ∧
      (m.replyTo x).didcomm.thread = some { Thread.dflt with thid := t.thid }) ∧
    ((∀ t, x.didcomm.thread = some t → t.thid = x.didcomm.id ∨
      ∃ r, t.receivedOrders = some r ∧ ∃ p ∈ r.entries, p.2 ≠ 0) →
      (m.replyTo x).didcomm.thid = x.didcomm.thid ∧
      (m.replyTo x).didcomm.pthid = x.didcomm.pthid ∧
      (m.replyTo x).didcomm.thread = m.didcomm.thread) ∧
    (∀ f : Field, f ≠ .to → f ≠ .thid → f ≠ .pthid → f ≠ .thread →
      f.get (m.replyTo x) = f.get m) := by
  refine ⟨?_, ?_, ?_, ?_⟩
  · simp only [Message.replyTo, DidCommHeader.replyTo]
    split
    · split <;> rfl
    · rfl
  · intro t ht hne hr
    have hi : t.isImplicitReply x.didcomm.id = true := by
      unfold Thread.isImplicitReply
      rw [if_pos hne]
      split
      · rename_i r hr'
        rw [List.all_eq_true]
        intro p hp
        simp [hr r hr' p hp]
      · rfl
    simp [Message.replyTo, DidCommHeader.replyTo, ht, hi, Thread.implicitReply]
  · intro h
    cases ht : x.didcomm.thread with
    | none => simp [Message.replyTo, DidCommHeader.replyTo, ht]
    | some t =>
      have hi : t.isImplicitReply x.didcomm.id = false := by
        unfold Thread.isImplicitReply
        rcases h t ht with e | ⟨r, hr, p, hp, hz⟩
        · simp [e]
        · split
          · rw [hr]
            rw [Bool.eq_false_iff]
            intro hall
            rw [List.all_eq_true] at hall
            exact hz (by simpa using hall p hp)
          · rfl
      simp [Message.replyTo, DidCommHeader.replyTo, ht, hi]
  · intro f h1 h2 h3 h4
    cases f <;>
      first
        | contradiction
        | (simp only [Field.get, Message.replyTo, DidCommHeader.replyTo]; done)
        | (simp only [Field.get, Message.replyTo, DidCommHeader.replyTo]
           split
           · split <;> rfl
           · rfl)

/-- Both cases of C10 occur. -/
example :
    (((Message.new c!"2").setPthid c!"p").replyTo
      { Message.new c!"1" with didcomm := { DidCommHeader.new c!"1" with
        thread := some (Thread.effectiveImplicitReply c!"t" c!"did:a:b") } }).didcomm.thid = some c!"t" ∧
    ((Message.new c!"2").replyTo
      { Message.new c!"1" with didcomm := { DidCommHeader.new c!"1" with
        thid := some c!"u", thread := some (Thread.implicit c!"1") } }).didcomm.thid = some c!"u" := by
  decide

/-! ## C11, C12: parents and URIs -/

/-- C11.  `with_parent` sets `pthid` to the parent's thread id, or to the parent's id; nothing else
changes; the message URI then ends with that value. -/
theorem C11_with_parent (m p : Message) :
    (∀ t, p.didcomm.thid = some t → (m.withParent p).didcomm.pthid = some t) ∧
    (p.didcomm.thid = none → (m.withParent p).didcomm.pthid = some p.didcomm.id) ∧
    (∀ f : Field, f ≠ .pthid → f.get (m.withParent p) = f.get m) ∧
    ∃ v, (m.withParent p).didcomm.pthid = some v ∧
      (m.withParent p).messageUri = c!"didcomm://" ++ m.didcomm.id ++ m.didcomm.thid.getD [] ++ v := by
  refine ⟨?_, ?_, ?_, ?_⟩
  · intro t h; simp [Message.withParent, h]
  · intro h; simp [Message.withParent, h]
  · intro f h; cases f <;> first | contradiction | rfl
  · exact ⟨_, rfl, rfl⟩

example : ((Message.new c!"2").withParent ((Message.new c!"1").setThid c!"t")).didcomm.pthid = some c!"t" ∧
    ((Message.new c!"2").withParent (Message.new c!"1")).didcomm.pthid = some c!"1" := by decide

/-- C12 fails: different (id, thid, pthid), same URI. -/
theorem C12_uri_not_injective :
    ¬ ∀ m n : Message, m.messageUri = n.messageUri →
      m.didcomm.id = n.didcomm.id ∧ m.didcomm.thid = n.didcomm.thid ∧
      m.didcomm.pthid = n.didcomm.pthid := by
  intro h
  have := (h ((Message.new c!"ab").setThid c!"c") ((Message.new c!"a").setThid c!"bc") (by decide)).1
  exact absurd this (by decide)

/-- C12, what holds: with ids of equal length and present thread ids of equal length the URI
determines id and thid, and it determines pthid up to the empty string. -/
theorem C12_uri_injective_partial {m n : Message} {t u : Str}
    (hid : m.didcomm.id.length = n.didcomm.id.length)
    (ht : m.didcomm.thid = some t) (hu : n.didcomm.thid = some u) (hl : t.length = u.length)
    (h : m.messageUri = n.messageUri) :
    m.didcomm.id = n.didcomm.id ∧ m.didcomm.thid = n.didcomm.thid ∧
      m.didcomm.pthid.getD [] = n.didcomm.pthid.getD [] := by
  simp only [Message.messageUri, DidCommHeader.messageUri, ht, hu, Option.getD_some,
    List.append_assoc, List.append_cancel_left_eq] at h
  obtain ⟨h1, h2⟩ := List.append_inj h hid
  obtain ⟨h3, h4⟩ := List.append_inj h2 hl
  exact ⟨h1, by rw [ht, hu, h3], h4⟩

example : ((Message.new c!"ab").setThid c!"c").messageUri = c!"didcomm://abc" := by decide

/-! ## C13: rotation -/

/-- C13.  Rotation messages give their claims, all others `NoRotationData`; no panic. -/
theorem C13_get_prior (m : Message) :
    (m.isRotation = true ↔ ∃ c, m.didcomm.fromPrior = some c) ∧
    (∀ c, m.getPrior = .ok c ↔ m.didcomm.fromPrior = some c) ∧
    (m.isRotation = false → m.getPrior = .err .noRotationData) ∧ m.getPrior ≠ .panic := by
  unfold Message.getPrior Message.isRotation
  cases h : m.didcomm.fromPrior <;> simp

example : ({ Message.new c!"1" with didcomm := { DidCommHeader.new c!"1" with
    fromPrior := some { sub := none, iss := c!"did:a:b" } } }).getPrior =
    .ok { sub := none, iss := c!"did:a:b" } := by decide

/-! ## C14: setters -/

/-- C14.  Every setter has exactly its documented effect on every field. -/
theorem C14_setters (P : Prims) (m : Message) (s : Setter) (f : Field) :
    f.get (s.apply P m) = (s.effect P m.didcomm.from f).getD (f.get m) := by
  cases s with
  | kid k =>
    cases f <;> simp only [Setter.apply, Setter.effect, Message.setKid, Field.get, Option.getD] <;>
      split <;> rfl
  | asJws a => cases a <;> cases f <;> rfl
  | asFlatJws a => cases a <;> cases f <;> rfl
  | asJwe a k =>
    cases k with
    | some k => cases a <;> cases f <;> rfl
    | none =>
      cases hf : m.didcomm.from with
      | none => cases a <;> cases f <;>
          simp [Setter.apply, Setter.effect, Message.asJwe, Field.get, hf, jweKid,
            JwmHeader.asEncrypted, algName, encName]
      | some s =>
        cases hr : P.resolve s with
        | none => cases a <;> cases f <;>
            simp [Setter.apply, Setter.effect, Message.asJwe, Field.get, hf, jweKid, hr,
              JwmHeader.asEncrypted, algName, encName]
        | some d => cases a <;> cases f <;>
            simp [Setter.apply, Setter.effect, Message.asJwe, Field.get, hf, jweKid, hr,
              JwmHeader.asEncrypted, algName, encName, curveName, Message.resolvedKid]
  | asFlatJwe a k =>
    cases k with
    | some k => cases a <;> cases f <;> rfl
    | none =>
      cases hf : m.didcomm.from with
      | none => cases a <;> cases f <;>
          simp [Setter.apply, Setter.effect, Message.asFlatJwe, Message.asJwe, Field.get, hf, jweKid,
            JwmHeader.asEncrypted, algName, encName]
      | some s =>
        cases hr : P.resolve s with
        | none => cases a <;> cases f <;>
            simp [Setter.apply, Setter.effect, Message.asFlatJwe, Message.asJwe, Field.get, hf, jweKid,
              hr, JwmHeader.asEncrypted, algName, encName]
        | some d => cases a <;> cases f <;>
            simp [Setter.apply, Setter.effect, Message.asFlatJwe, Message.asJwe, Field.get, hf, jweKid,
              hr, JwmHeader.asEncrypted, algName, encName, curveName, Message.resolvedKid]
  | _ => cases f <;> rfl

theorem field_ext {m n : Message} (h : ∀ f : Field, f.get m = f.get n) : m = n := by
  cases m with | mk jm dm rm bm fm gm am =>
  cases n with | mk jn dn rn bn fn gn an =>
  cases jm; cases jn; cases dm; cases dn
  have := h .typ; have := h .enc; have := h .kid; have := h .skid; have := h .alg; have := h .jku
  have := h .jwk; have := h .epk; have := h .cty; have := h .id; have := h .thid; have := h .pthid
  have := h .mType; have := h .to; have := h .from; have := h .created; have := h .expires
  have := h .prior; have := h .thread; have := h .other; have := h .recipients; have := h .body
  have := h .flatJwe; have := h .flatJws; have := h .attachments
  simp only [Field.get] at *
  subst_vars
  rfl

/-- C14.  Setters of different fields commute; `as_jwe` without a key reads `from`, so it does not
commute with setters of `from`. -/
theorem C14_setters_commute (P : Prims) (m : Message) (s t : Setter)
    (hd : ∀ g g' f, s.effect P g f = none ∨ t.effect P g' f = none)
    (hs : ∀ g, s.effect P g .from = none ∨ ∀ g1 g2 f, t.effect P g1 f = t.effect P g2 f)
    (ht : ∀ g, t.effect P g .from = none ∨ ∀ g1 g2 f, s.effect P g1 f = s.effect P g2 f) :
    s.apply P (t.apply P m) = t.apply P (s.apply P m) := by
  apply field_ext
  intro f
  rw [C14_setters P (t.apply P m) s f, C14_setters P m t f, C14_setters P (s.apply P m) t f,
    C14_setters P m s f]
  have e1 : s.effect P (t.apply P m).didcomm.from f = s.effect P m.didcomm.from f := by
    rcases ht m.didcomm.from with h | h
    · have : (t.apply P m).didcomm.from = m.didcomm.from := by
        have := C14_setters P m t .from
        rw [h] at this
        exact this
      rw [this]
    · exact h _ _ _
  have e2 : t.effect P (s.apply P m).didcomm.from f = t.effect P m.didcomm.from f := by
    rcases hs m.didcomm.from with h | h
    · have : (s.apply P m).didcomm.from = m.didcomm.from := by
        have := C14_setters P m s .from
        rw [h] at this
        exact this
      rw [this]
    · exact h _ _ _
  rw [e1, e2]
  rcases hd m.didcomm.from m.didcomm.from f with h | h <;> rw [h] <;> simp

/-- The last value given to a field by a run of setters, none of which depends on `from`. -/
def lastEffect (P : Prims) (f : Field) : List Setter → Option f.Val → Option f.Val
  | [], acc => acc
  | s :: l, acc => lastEffect P f l ((s.effect P none f).or acc)

/-- C14.  In a sequence of setters (other than `as_jwe` with key lookup) the last one wins, field by
field. -/
theorem C14_last_call_wins (P : Prims) (l : List Setter)
    (hl : ∀ s ∈ l, ∀ g1 g2 f, s.effect P g1 f = s.effect P g2 f) (m : Message) (f : Field) :
    f.get (l.foldl (Setter.apply P) m) = (lastEffect P f l none).getD (f.get m) := by
  have key : ∀ (l : List Setter) (m : Message) (acc : Option f.Val) (d : f.Val),
      (∀ s ∈ l, ∀ g1 g2 f, s.effect P g1 f = s.effect P g2 f) → f.get m = acc.getD d →
      f.get (l.foldl (Setter.apply P) m) = (lastEffect P f l acc).getD d := by
    intro l
    induction l with
    | nil => intro m acc d _ h; exact h
    | cons s l ih =>
      intro m acc d hl h
      refine ih (s.apply P m) _ d (fun x hx => hl x (List.mem_cons_of_mem _ hx)) ?_
      rw [C14_setters, hl s (List.mem_cons_self ..) m.didcomm.from none f, h]
      cases s.effect P none f <;> simp
  exact key l m none _ hl rfl

/-- The hypotheses of `C14_setters_commute` and `C14_last_call_wins` are met. -/
example (P : Prims) (m : Message) :
    (Setter.thid c!"a").apply P ((Setter.asJws .es256).apply P m) =
      (Setter.asJws .es256).apply P ((Setter.thid c!"a").apply P m) ∧
    Field.get ([Setter.kid c!"a", Setter.thid c!"t", Setter.kid c!"b"].foldl (Setter.apply P) m) .kid =
      some c!"b" := by
  constructor
  · apply C14_setters_commute
    · intro g g' f; cases f <;> simp [Setter.effect]
    · intro g; exact .inl rfl
    · intro g; exact .inl rfl
  · rw [C14_last_call_wins]
    · rfl
    · intro s hs g1 g2 f
      simp only [List.mem_cons, List.not_mem_nil, or_false] at hs
      rcases hs with rfl | rfl | rfl <;> cases f <;> rfl

/-! ## C40: labels -/

/-- C40.  A label is read as the variant it is written for, and as nothing else. -/
theorem C40_labels :
    (∀ s t, MessageType.ofLabel s = some t ↔ s = t.label) ∧
    (∀ s t, KeyOps.ofLabel s = some t ↔ s = t.label) ∧
    (∀ s t, KeyAlgorithm.ofLabel s = some t ↔ s = t.label) := by
  refine ⟨fun s t => ⟨fun h => ?_, ?_⟩, fun s t => ⟨fun h => ?_, ?_⟩, fun s t => ⟨fun h => ?_, ?_⟩⟩
  · have := List.find?_some h
    simpa using (of_decide_eq_true this).symm
  · rintro rfl; exact MessageType.ofLabel_label t
  · have := List.find?_some h
    simpa using (of_decide_eq_true this).symm
  · rintro rfl; exact KeyOps.ofLabel_label t
  · have := List.find?_some h
    simpa using (of_decide_eq_true this).symm
  · rintro rfl; exact KeyAlgorithm.ofLabel_label t

/-- C40.  Distinct variants have distinct labels. -/
theorem C40_labels_injective :
    Function.Injective MessageType.label ∧ Function.Injective KeyOps.label ∧
      Function.Injective KeyAlgorithm.label := by
  refine ⟨fun a b h => ?_, fun a b h => ?_, fun a b h => ?_⟩
  · have := (C40_labels.1 b.label a).2 h.symm
    rw [MessageType.ofLabel_label] at this
    exact (Option.some.inj this).symm
  · have := (C40_labels.2.1 b.label a).2 h.symm
    rw [KeyOps.ofLabel_label] at this
    exact (Option.some.inj this).symm
  · have := (C40_labels.2.2 b.label a).2 h.symm
    rw [KeyAlgorithm.ofLabel_label] at this
    exact (Option.some.inj this).symm

example : MessageType.ofLabel c!"application/didcomm-plain+json" = some .raw ∧
    MessageType.ofLabel c!"application/didcomm-plain" = none := by decide

/-! ## C49: header getters of envelopes -/

/-- C49.  A JWE getter takes the value of the protected header and falls back to the unprotected one. -/
theorem C49_jwe_getter {β : Type} (j : Jwe) (f : JwmHeader → Option β) :
    (∀ h v, j.protected_ = some h → f h = some v → j.getter f = some v) ∧
    (∀ h v, (∀ p, j.protected_ = some p → f p = none) → j.unprotected = some h → f h = some v →
      j.getter f = some v) ∧
    (j.getter f = none ↔
      (∀ p, j.protected_ = some p → f p = none) ∧ ∀ p, j.unprotected = some p → f p = none) := by
  unfold Jwe.getter fallback
  cases j.protected_ with
  | none =>
    refine ⟨?_, ?_, ?_⟩
    · intro h v hp; cases hp
    · intro h v _ hu hf; simp [hu, hf]
    · cases j.unprotected <;> simp
  | some p =>
    cases hp : f p with
    | none =>
      refine ⟨?_, ?_, ?_⟩
      · rintro h v ⟨⟩ hf; rw [hp] at hf; cases hf
      · intro h v _ hu hf; simp [hp, hu, hf]
      · cases j.unprotected <;> simp [hp]
    | some w =>
      refine ⟨?_, ?_, ?_⟩
      · rintro h v ⟨⟩ hf; rw [hp] at hf; simp [hp, hf]
      · intro h v hn; have := hn p rfl; rw [hp] at this; cases this
      · simp [hp]

/-- C49.  A signature getter takes the value of the unprotected header and falls back to the protected
one. -/
theorem C49_jws_getter {β : Type} (s : Signature) (f : JwmHeader → Option β) :
    (∀ h v, s.header = some h → f h = some v → s.getter f = some v) ∧
    (∀ h v, (∀ p, s.header = some p → f p = none) → s.protected_ = some h → f h = some v →
      s.getter f = some v) ∧
    (s.getter f = none ↔
      (∀ p, s.header = some p → f p = none) ∧ ∀ p, s.protected_ = some p → f p = none) := by
  unfold Signature.getter fallback
  cases s.header with
  | none =>
    refine ⟨?_, ?_, ?_⟩
    · intro h v hp; cases hp
    · intro h v _ hu hf; simp [hu, hf]
    · cases s.protected_ <;> simp
  | some p =>
    cases hp : f p with
    | none =>
      refine ⟨?_, ?_, ?_⟩
      · rintro h v ⟨⟩ hf; rw [hp] at hf; cases hf
      · intro h v _ hu hf; simp [hp, hu, hf]
      · cases s.protected_ <;> simp [hp]
    | some w =>
      refine ⟨?_, ?_, ?_⟩
      · rintro h v ⟨⟩ hf; rw [hp] at hf; simp [hp, hf]
      · intro h v hn; have := hn p rfl; rw [hp] at this; cases this
      · simp [hp]

example : (Signature.mk (some { JwmHeader.dflt with alg := some c!"EdDSA" })
    (some { JwmHeader.dflt with alg := some c!"ES256" }) []).getAlg = some c!"ES256" := by decide

/-- The named getters, with the members they read; `a` is looked at before `b`. -/
def Spec.Prefers (a b : Option JwmHeader) {β : Type} (member : JwmHeader → Option β) (got : Option β) : Prop :=
  got = match a.bind member with
    | some v => some v
    | none => b.bind member

/-- C49.  Each named getter of a JWE reads the member of its name, the protected header first. -/
theorem C49_jwe_named (j : Jwe) :
    Spec.Prefers j.protected_ j.unprotected (·.alg) j.getAlg ∧ Spec.Prefers j.protected_ j.unprotected (·.cty) j.getCty ∧
    Spec.Prefers j.protected_ j.unprotected (·.enc) j.getEnc ∧ Spec.Prefers j.protected_ j.unprotected (·.epk) j.getEpk ∧
    Spec.Prefers j.protected_ j.unprotected (·.jku) j.getJku ∧ Spec.Prefers j.protected_ j.unprotected (·.jwk) j.getJwk ∧
    Spec.Prefers j.protected_ j.unprotected (·.kid) j.getKid ∧ Spec.Prefers j.protected_ j.unprotected (·.skid) j.getSkid := by
  have key : ∀ {β : Type} (f : JwmHeader → Option β), Spec.Prefers j.protected_ j.unprotected f (j.getter f) := by
    intro β f
    unfold Spec.Prefers Jwe.getter fallback
    cases j.protected_ with
    | none => cases j.unprotected <;> rfl
    | some h => cases hf : f h <;> cases j.unprotected <;> simp [hf]
  exact ⟨key _, key _, key _, key _, key _, key _, key _, key _⟩

/-- C49.  Each named getter of a signature reads the member of its name, the unprotected header first. -/
theorem C49_jws_named (s : Signature) :
    Spec.Prefers s.header s.protected_ (·.alg) s.getAlg ∧ Spec.Prefers s.header s.protected_ (·.cty) s.getCty ∧
    Spec.Prefers s.header s.protected_ (·.enc) s.getEnc ∧ Spec.Prefers s.header s.protected_ (·.epk) s.getEpk ∧
    Spec.Prefers s.header s.protected_ (·.jku) s.getJku ∧ Spec.Prefers s.header s.protected_ (·.jwk) s.getJwk ∧
    Spec.Prefers s.header s.protected_ (·.kid) s.getKid ∧ Spec.Prefers s.header s.protected_ (·.skid) s.getSkid := by
  have key : ∀ {β : Type} (f : JwmHeader → Option β), Spec.Prefers s.header s.protected_ f (s.getter f) := by
    intro β f
    unfold Spec.Prefers Signature.getter fallback
    cases s.header with
    | none => cases s.protected_ <;> rfl
    | some h => cases hf : f h <;> cases s.protected_ <;> simp [hf]
  exact ⟨key _, key _, key _, key _, key _, key _, key _, key _⟩

example : ∃ j : Jwe, j.getKid = some c!"k" ∧ j.getSkid = some c!"s" ∧ j.getCty = none :=
  ⟨{ (default : Jwe) with protected_ := some { JwmHeader.dflt with skid := some c!"s" },
                          unprotected := some { JwmHeader.dflt with skid := some c!"t", kid := some c!"k" } }, by decide⟩

/-! ## C52: threads -/

/-- C52.  A thread is an implicit reply exactly if its id differs from the message id and every
received order is zero. -/
theorem C52_is_implicit_reply (t : Thread) (id : Str) :
    t.isImplicitReply id = true ↔
      t.thid ≠ id ∧ ∀ r, t.receivedOrders = some r → ∀ sender n, r.get sender = some n → n = 0 := by
  unfold Thread.isImplicitReply
  by_cases h : t.thid = id
  · simp [h]
  · simp only [ne_eq, h, not_false_eq_true, if_true, true_and]
    cases hr : t.receivedOrders with
    | none => simp
    | some r =>
      simp only [List.all_eq_true, beq_iff_eq, Option.some.injEq, forall_eq']
      constructor
      · intro hall s n hg
        exact hall (s, n) (HMap.mem_entries.2 hg)
      · intro hall p hp
        exact hall p.1 p.2 (HMap.mem_entries.1 hp)

/-- C52.  The constructors set exactly the documented fields. -/
theorem C52_constructors (a b : Str) :
    Thread.implicit a = ⟨a, [], some 0, none, none⟩ ∧
    Thread.implicitReply a = ⟨a, [], none, none, none⟩ ∧
    (∃ r, Thread.effectiveImplicitReply a b = ⟨a, [], none, some r, none⟩ ∧
      ∀ s n, r.get s = some n ↔ s = b ∧ n = 0) ∧
    ∀ id, (Thread.effectiveImplicitReply a b).isImplicitReply id = true ↔ a ≠ id := by
  have hr : ∀ s n, (HMap.ofList [(b, (0 : UInt64))]).get s = some n ↔ s = b ∧ n = 0 := by
    intro s n
    rw [HMap.get_ofList]
    simp only [lastVal, List.foldl_cons, List.foldl_nil]
    by_cases h : b = s
    · subst h; simp [eq_comm]
    · simp [h, Ne.symm h]
  refine ⟨rfl, rfl, ⟨_, rfl, hr⟩, fun id => ?_⟩
  rw [C52_is_implicit_reply]
  constructor
  · exact fun h => h.1
  · intro h
    refine ⟨h, ?_⟩
    rintro r hr' s n hg
    obtain rfl : HMap.ofList [(b, (0 : UInt64))] = r := Option.some.inj hr'
    exact ((hr s n).1 hg).2

example : (Thread.effectiveImplicitReply c!"t" c!"did:a:b").isImplicitReply c!"m" = true ∧
    (Thread.implicit c!"m").isImplicitReply c!"m" = false := by decide

/-! ## C56: forward headers -/

/-- C56 fails: the type of a forward header is `JWM`, never the forward type. -/
theorem C56_forward_type_violated (uuid : Str) (t : UInt64) (to : List Str) (frm : Option Str)
    (e : Option UInt64) :
    ∃ h, DidCommHeader.forward uuid (some t) to frm e = .ok h ∧ h.mType = c!"JWM" ∧
      h.mType ≠ MessageType.forward.label := by
  refine ⟨_, rfl, rfl, ?_⟩
  show c!"JWM" ≠ _
  decide

/-- C56, what holds: recipients, sender and times are as given, the clock must be after 1970. -/
theorem C56_forward_fields_partial (uuid : Str) (now : Option UInt64) (to : List Str)
    (frm : Option Str) (e : Option UInt64) (h : DidCommHeader) :
    DidCommHeader.forward uuid now to frm e = .ok h ↔
      ∃ t, now = some t ∧ h.to = to ∧ h.from = frm ∧ h.createdTime = some t ∧ h.expiresTime = e ∧
        h.id = uuid ∧ h.thid = none ∧ h.pthid = none ∧ h.mType = c!"JWM" ∧ h.fromPrior = none ∧
        h.thread = none ∧ h.other = HMap.empty := by
  cases now with
  | none => simp [DidCommHeader.forward]
  | some t =>
    simp only [DidCommHeader.forward, Res.ok.injEq, Option.some.injEq, exists_eq_left']
    constructor
    · rintro rfl
      simp [DidCommHeader.new]
    · rintro ⟨h1, h2, h3, h4, h5, h6, h7, h8, h9, h10, h11⟩
      cases h
      simp_all [DidCommHeader.new]

end Verif
