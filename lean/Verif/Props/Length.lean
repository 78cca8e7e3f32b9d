import Verif.Props.Onion
import Verif.Props.Raw
import Mathlib.Data.List.Forall2

/-!
# What the length of an envelope shows

C114.
-/

namespace Verif

open Spec

/-! ## Lengths of texts -/

/-- Number of bytes of a text. -/
def Spec.size (s : Str) : Nat := (utf8 s).length

theorem size_append (s t : Str) : size (s ++ t) = size s + size t := by
  simp [size, utf8, List.flatMap_append]

theorem size_cons (c : Char) (s : Str) : size (c :: s) = size [c] + size s := size_append [c] s

theorem size_ascii {s : Str} (h : ∀ c ∈ s, c.toNat < 128) : size s = s.length := by
  induction s with
  | nil => rfl
  | cons c s ih =>
    have h1 : (utf8Char c).length = 1 := by simp [utf8Char, h c (by simp)]
    have h2 := ih fun x hx => h x (by simp [hx])
    simp only [size, utf8, List.flatMap_cons, List.length_append, List.length_cons, h1] at h2 ⊢
    omega

theorem size_colon (s : Str) : size (':' :: s) = 1 + size s := size_cons _ _
theorem size_comma (s : Str) : size (',' :: s) = 1 + size s := size_cons _ _
theorem size_brace (s : Str) : size ('{' :: s) = 1 + size s := size_cons _ _
theorem size_bracket (s : Str) : size ('[' :: s) = 1 + size s := size_cons _ _
theorem size_close : size ['}'] = 1 := by decide

/-- Bytes written for a member and the comma after it. -/
def memberSize (p : Str × Json) : Nat := size (printStr p.1) + size (printJson p.2) + 2

def membersSize (es : List (Str × Json)) : Nat := (es.map memberSize).sum

theorem size_printMembers : ∀ es : List (Str × Json), size (printMembers es) = 1 + (membersSize es - 1)
  | [] => rfl
  | [(k, v)] => by
    simp only [printMembers, size_append, size_colon, size_close, membersSize, memberSize, List.map_cons, List.map_nil,
      List.sum_cons, List.sum_nil]
    omega
  | (k, v) :: p :: es => by
    have ih := size_printMembers (p :: es)
    have h3 : 2 ≤ membersSize (p :: es) := by
      simp only [membersSize, memberSize, List.map_cons, List.sum_cons]; omega
    have h4 : membersSize ((k, v) :: p :: es) = memberSize (k, v) + membersSize (p :: es) := rfl
    rw [h4]
    simp only [printMembers, size_append, size_colon, size_comma, ih, memberSize]
    omega

theorem size_obj (es : List (Str × Json)) : size (printJson (.obj es)) = 2 + (membersSize es - 1) := by
  simp only [printJson, size_brace, size_printMembers]
  omega

theorem membersSize_append (a b : List (Str × Json)) : membersSize (a ++ b) = membersSize a + membersSize b := by
  simp [membersSize]

theorem membersSize_cons (p : Str × Json) (b : List (Str × Json)) :
    membersSize (p :: b) = memberSize p + membersSize b := rfl

theorem membersSize_perm {a b : List (Str × Json)} (h : a.Perm b) : membersSize a = membersSize b := by
  induction h with
  | nil => rfl
  | cons x _ ih => simp only [membersSize_cons, ih]
  | swap x y l => simp only [membersSize_cons]; omega
  | trans _ _ h1 h2 => exact h1.trans h2

theorem size_printElems_congr : ∀ {l l' : List Json},
    l.map (fun j => size (printJson j)) = l'.map (fun j => size (printJson j)) →
    size (printElems l) = size (printElems l')
  | [], [], _ => rfl
  | [], _ :: _, h => by cases h
  | _ :: _, [], h => by cases h
  | [a], [b], h => by
    simp only [List.map_cons, List.map_nil, List.cons.injEq, and_true] at h
    simp only [printElems, size_append, h]
  | [a], b :: c :: l, h => by cases (List.cons.inj h).2
  | a :: c :: l, [b], h => by cases (List.cons.inj h).2
  | a :: c :: l, b :: d :: l', h => by
    have h1 := (List.cons.inj h).1
    have ih := size_printElems_congr (List.cons.inj h).2
    simp only [printElems, size_append, size_comma] at ih ⊢
    simp only [h1, ih]

theorem size_arr_congr {l l' : List Json}
    (h : l.map (fun j => size (printJson j)) = l'.map (fun j => size (printJson j))) :
    size (printJson (.arr l)) = size (printJson (.arr l')) := by
  simp only [printJson, size_bracket, size_printElems_congr h]

/-! ## Lengths do not depend on map orders -/

theorem membersSize_mapE {α : Type} (o o' : HOrd) (e : α → Json) (m : HMap α) :
    membersSize (mapE o e m) = membersSize (mapE o' e m) :=
  membersSize_perm ((o.perm [] _).trans (o'.perm [] _).symm)

theorem membersSize_optE {α : Type} {k : Str} {e e' : α → Json}
    (h : ∀ a, size (printJson (e a)) = size (printJson (e' a))) (x : Option α) :
    membersSize (optE k e x) = membersSize (optE k e' x) := by
  cases x with
  | none => rfl
  | some a => simp only [optE, membersSize, memberSize, List.map_cons, List.map_nil, h]

theorem size_encJwk (o o' : HOrd) (k : Jwk) : size (printJson (encJwk o k)) = size (printJson (encJwk o' k)) := by
  simp only [encJwk, size_obj, membersSize_append, membersSize_cons, membersSize_mapE o o']

theorem membersSize_jwm (o o' : HOrd) (h : JwmHeader) :
    membersSize (jwmEntries o h) = membersSize (jwmEntries o' h) := by
  simp only [jwmEntries, membersSize_append, membersSize_cons,
    membersSize_optE (size_encJwk (o.sub 0) (o'.sub 0)), membersSize_optE (size_encJwk (o.sub 1) (o'.sub 1))]

theorem size_encThread (o o' : HOrd) (t : Thread) :
    size (printJson (encThread o t)) = size (printJson (encThread o' t)) := by
  have h : ∀ x : HMap UInt64, size (printJson (.obj (mapE o encU64 x))) = size (printJson (.obj (mapE o' encU64 x))) := by
    intro x
    rw [size_obj, size_obj, membersSize_mapE o o']
  simp only [encThread, size_obj, membersSize_append, membersSize_cons, membersSize_optE h]

theorem membersSize_didcomm (o o' : HOrd) (h : DidCommHeader) :
    membersSize (didcommEntries o h) = membersSize (didcommEntries o' h) := by
  simp only [didcommEntries, membersSize_append, membersSize_cons, membersSize_mapE (o.sub 1) (o'.sub 1),
    membersSize_optE (size_encThread (o.sub 0) (o'.sub 0))]

/-! ## Lengths of what `seal` writes -/

theorem b64_plain : ∀ n, n < 64 → escChar (b64Char n) = [b64Char n] ∧ (b64Char n).toNat < 128 := by decide

theorem size_b64 (b : Bytes) : size (printStr (b64Encode b)) = (b.length * 4 + 2) / 3 + 2 := by
  have h : ∀ c ∈ b64Encode b, escChar c = [c] ∧ c.toNat < 128 := by
    intro c hc
    obtain ⟨n, hn, rfl⟩ := b64Encode_chars b c hc
    exact b64_plain n hn
  have h1 : (b64Encode b).flatMap escChar = b64Encode b := by
    generalize b64Encode b = s at h
    induction s with
    | nil => rfl
    | cons c s ih => rw [List.flatMap_cons, (h c (by simp)).1, ih fun x hx => h x (by simp [hx])]; rfl
  have h2 : size ('"' :: (b64Encode b ++ ['"'])) = 1 + (size (b64Encode b) + 1) := by
    rw [size_cons, size_append]; rfl
  rw [printStr, h1, h2, size_ascii fun c hc => (h c hc).2, b64Encode_length]
  omega

theorem size_str (s : Str) : size (printJson (.str s)) = size (printStr s) := by simp only [printJson]

/-- Entries of recipients of the same name have the same length. -/
theorem size_entry {P P' : Prims} (hP : Laws P) (hP' : Laws P') {r r' : RecRand} {m m' : Message} {sk sk' ck ck' : Bytes}
    {dest : Str} {key key' : Option Bytes} {rc rc' : Recipient} (hm : m.jwm = m'.jwm) (hck : ck.length = ck'.length)
    (h : encryptCek P r m sk dest ck key = .ok rc) (h' : encryptCek P' r' m' sk' dest ck' key' = .ok rc')
    (o o' : HOrd) : membersSize (recipientEntries o rc) = membersSize (recipientEntries o' rc') := by
  obtain ⟨alg, ze, kek, ka, iv, c, tag, h1, -, -, h2, h3, h4, h5, h6, h7, h8, h9, h10, h11, h12⟩ := encryptCek_ok h
  obtain ⟨alg', ze', kek', ka', iv', c', tag', h1', -, -, h2', h3', h4', h5', h6', h7', h8', h9', h10', h11', h12'⟩ :=
    encryptCek_ok h'
  obtain rfl : alg = alg' := Option.some.inj (h1.symm.trans (hm ▸ h1'))
  have hc : c.length = c'.length := by
    have e := (unwrap_wrap hP h2).2
    have e' := (unwrap_wrap hP' h2').2
    rw [List.length_append] at e e'
    omega
  have hiv : iv.length = iv'.length ∧ ka = ka' := by
    rcases wrapCek_iv h2 with ⟨e, hi, hk⟩ | ⟨e, hi, hk⟩ <;> rcases wrapCek_iv h2' with ⟨e', hi', hk'⟩ | ⟨e', hi', hk'⟩
    · exact ⟨hi.trans hi'.symm, hk.trans hk'.symm⟩
    · rw [e] at e'; exact absurd e' (by decide)
    · rw [e] at e'; exact absurd e' (by decide)
    · exact ⟨hi.trans hi'.symm, hk.trans hk'.symm⟩
  have ho : ∀ (o : HOrd) (a b : Str), membersSize (mapE o Json.str ((HMap.empty.insert c!"iv" a).insert c!"tag" b)) =
      memberSize (c!"iv", .str a) + memberSize (c!"tag", .str b) := by
    intro o a b
    exact membersSize_perm (o.perm [] _)
  have hp : (P.x25519Pub r.epk).length = (P'.x25519Pub r'.epk).length := (hP.pub_len _).trans (hP'.pub_len _).symm
  simp only [recipientEntries, encJwk, membersSize_cons, memberSize, size_obj, membersSize_append, h4, h4', h5, h5', h6, h6',
    h7, h7', h8, h8', h9, h9', h10, h10', h11, h11', h12, h12', ho, hiv.2, optE, encEpk, size_str, size_b64, hc, hiv.1, h3,
    h3', hp]

theorem size_encRecipient {o o' : HOrd} {rc rc' : Recipient}
    (h : membersSize (recipientEntries o rc) = membersSize (recipientEntries o' rc')) :
    size (printJson (encRecipient o rc)) = size (printJson (encRecipient o' rc')) := by
  simp only [encRecipient, size_obj, h]

theorem size_encList : ∀ {l l' : List Recipient}, List.Forall₂
    (fun rc rc' => ∀ o o', membersSize (recipientEntries o rc) = membersSize (recipientEntries o' rc')) l l' →
    ∀ o o', (encList encRecipient o l).map (fun j => size (printJson j)) =
      (encList encRecipient o' l').map (fun j => size (printJson j))
  | _, _, .nil, _, _ => rfl
  | _, _, .cons h t, o, o' => by
    simp only [encList, List.map_cons, size_encRecipient (h (o.sub 0) (o'.sub 0)), size_encList t (o.sub 1) (o'.sub 1)]

/-- Bytes of the text of a message: its recipient entries and everything else. -/
theorem size_message (o : HOrd) (m : Message) :
    size (m.text o) = 2 + (membersSize (jwmEntries (o.sub 0) m.jwm) + (membersSize (didcommEntries (o.sub 1) m.didcomm) +
      (membersSize (optE c!"recipients" (fun l => .arr (encList encRecipient (o.sub 2) l)) m.recipients) +
        (memberSize (c!"body", m.body) +
          membersSize (vecE c!"attachments" (fun l => .arr (l.map encAttachment)) m.attachments)))) - 1) := by
  simp only [Message.text, encMessage, size_obj, membersSize_append, membersSize_cons]

theorem size_headerB64 (o o' : HOrd) (h : JwmHeader) :
    size (printStr (headerB64 o h)) = size (printStr (headerB64 o' h)) := by
  have e : size (printJson (encJwm o h)) = size (printJson (encJwm o' h)) := by
    simp only [encJwm, size_obj, membersSize_jwm o o']
  unfold size at e
  simp only [headerB64, size_b64, e]

/-- C114.  Two messages with the same protected header, sender and recipients give envelopes of the same
length exactly when the messages have the same length, whatever the keys, the random numbers and the map
orders: the length of an envelope shows the length of the message to the byte, and nothing else. -/
theorem C114_length (P : Prims) (hP : Laws P) (r r' : Message.SealRand) (m m' : Message) (ssk ssk' : Bytes)
    (keys keys' : Option (List (Option Bytes))) (t t' : Str) (h1 : m.jwm = m'.jwm)
    (h2 : m.didcomm.from = m'.didcomm.from) (h3 : m.didcomm.to = m'.didcomm.to) (h4 : m.flatJwe = m'.flatJwe)
    (hs : m.sealJwe P r ssk keys = .ok t) (hs' : m'.sealJwe P r' ssk' keys' = .ok t') (o o' : HOrd) :
    size t = size t' ↔
      size ({ m with recipients := none }.text o) = size ({ m' with recipients := none }.text o') := by
  obtain ⟨pks, rs, a, c, tag, alg, hp, hpl, hk, hto, hflat, hrs, hl, hal, ha, he, htag, rfl⟩ := seal_ok hs
  obtain ⟨pks', rs', a', c', tag', alg', hp', hpl', hk', hto', hflat', hrs', hl', hal', ha', he', htag', rfl⟩ := seal_ok hs'
  have hlen := encryptor_len hP (ofStr_ne_cbc ha) he
  have hlen' := encryptor_len hP (ofStr_ne_cbc ha') he'
  rw [List.length_append, htag] at hlen
  rw [List.length_append, htag'] at hlen'
  have hph : publicHeader m = publicHeader m' := by simp only [publicHeader, h1, h2]
  have hall : List.Forall₂
      (fun rc rc' => ∀ o o', membersSize (recipientEntries o rc) = membersSize (recipientEntries o' rc')) rs rs' := by
    rw [List.forall₂_iff_get]
    refine ⟨by rw [hl, hl', h3], fun i hi hi' o o' => ?_⟩
    obtain ⟨d, k, e1, e2⟩ := (sealRecipients_ok hrs).2 i _ (List.getElem?_eq_getElem hi)
    obtain ⟨d', k', e1', e2'⟩ := (sealRecipients_ok hrs').2 i _ (List.getElem?_eq_getElem hi')
    have e3 : d = d' := by
      rw [List.getElem?_zip_eq_some] at e1 e1'
      rw [h3] at e1
      exact Option.some.inj (e1.1.symm.trans e1'.1)
    subst e3
    exact size_entry hP hP h1 rfl e2 e2' o o'
  have harr : ∀ o o', memberSize (c!"recipients", .arr (encList encRecipient o rs)) =
      memberSize (c!"recipients", .arr (encList encRecipient o' rs')) := by
    intro o o'
    simp only [memberSize, size_arr_congr (size_encList hall o o')]
  have hmsg : size ({ m with recipients := some rs }.text (r.ord.sub 1)) =
        size ({ m' with recipients := some rs' }.text (r'.ord.sub 1)) ↔
      size ({ m with recipients := none }.text o) = size ({ m' with recipients := none }.text o') := by
    have e0 := harr ((r.ord.sub 1).sub 2) ((r'.ord.sub 1).sub 2)
    have e1 := membersSize_didcomm ((r.ord.sub 1).sub 1) (o.sub 1) m.didcomm
    have e2 := membersSize_didcomm ((r'.ord.sub 1).sub 1) (o'.sub 1) m'.didcomm
    have e3 := membersSize_jwm ((r.ord.sub 1).sub 0) (o.sub 0) m.jwm
    have e4 := membersSize_jwm ((r'.ord.sub 1).sub 0) (o'.sub 0) m'.jwm
    have e5 : ∀ p, 2 ≤ memberSize p := fun p => Nat.le_add_left _ _
    have e6 := e5 (c!"body", m.body)
    have e7 := e5 (c!"body", m'.body)
    simp only [size_message, optE, membersSize_cons, e1, e2, e3, e4, e0]
    have e8 : membersSize [] = 0 := rfl
    rw [e8]
    omega
  have hfl : membersSize (flatRecipient ((r.ord.sub 2).sub 2) (if m.flatJwe then rs.head? else none)) =
      membersSize (flatRecipient ((r'.ord.sub 2).sub 2) (if m'.flatJwe then rs'.head? else none)) := by
    rw [h4]
    cases m'.flatJwe with
    | false => rfl
    | true =>
      cases hall with
      | nil => rfl
      | cons h t => exact h _ _
  have hgen : membersSize (optE c!"recipients" (fun l => .arr (encList encRecipient ((r.ord.sub 2).sub 3) l))
        (if m.flatJwe then none else some rs)) =
      membersSize (optE c!"recipients" (fun l => .arr (encList encRecipient ((r'.ord.sub 2).sub 3) l))
        (if m'.flatJwe then none else some rs')) := by
    rw [h4]
    cases m'.flatJwe with
    | true => rfl
    | false => exact congrArg (· + 0) (harr _ _)
  rw [← hmsg]
  have hc1 : c.length = size ({ m with recipients := some rs }.text (r.ord.sub 1)) := Nat.add_right_cancel hlen
  have hc2 : c'.length = size ({ m' with recipients := some rs' }.text (r'.ord.sub 1)) := Nat.add_right_cancel hlen'
  rw [← hc1, ← hc2]
  have hhead : memberSize (c!"protected", .str (headerB64 ((r.ord.sub 2).sub 0) (publicHeader m))) =
      memberSize (c!"protected", .str (headerB64 ((r'.ord.sub 2).sub 0) (publicHeader m'))) := by
    simp only [memberSize, printJson, hph, size_headerB64 ((r.ord.sub 2).sub 0) ((r'.ord.sub 2).sub 0)]
  have e8 : membersSize [] = 0 := rfl
  simp only [Jwe.text, encJwe, envelope, size_obj, membersSize_append, membersSize_cons, hfl, hgen]
  simp only [optE, membersSize_cons, hhead, e8]
  have hct : ∀ k b, memberSize (k, .str (b64Encode b)) = size (printStr k) + ((b.length * 4 + 2) / 3 + 2) + 2 := by
    intro k b
    simp only [memberSize, printJson, size_b64]
  simp only [hct, htag, htag', r.iv.2, r'.iv.2]
  omega

/-- C114.  One message sealed twice, with whatever keys, random numbers and map orders, gives two
envelopes of the same length. -/
theorem C114_same_message (P : Prims) (hP : Laws P) (r r' : Message.SealRand) (m : Message) (ssk ssk' : Bytes)
    (keys keys' : Option (List (Option Bytes))) (t t' : Str)
    (hs : m.sealJwe P r ssk keys = .ok t) (hs' : m.sealJwe P r' ssk' keys' = .ok t') : size t = size t' :=
  (C114_length P hP r r' m m ssk ssk' keys keys' t t' rfl rfl rfl rfl hs hs' HOrd.id HOrd.id).2 rfl

/-- A message that says yes or no. -/
def verdict (s : Str) : Message := { exampleMessage with body := .str s }

theorem verdict_didcomm (s s' : Str) : (verdict s).didcomm = (verdict s').didcomm := rfl

theorem verdict_sealed (s : Str) (i : Nat) : ∃ t, (verdict s).sealJwe (toy fun _ => none) exampleRand (exampleKey i)
    (some [some ((toy fun _ => none).x25519Pub (exampleKey 1)), some ((toy fun _ => none).x25519Pub (exampleKey 2))]) = .ok t :=
  have hl := toy_laws fun _ => none
  C16_seal_total (toy fun _ => none) hl (toy_total _) exampleRand (verdict s) (exampleKey i)
    (some [some ((toy fun _ => none).x25519Pub (exampleKey 1)), some ((toy fun _ => none).x25519Pub (exampleKey 2))])
    c!"ECDH-1PU+XC20PKW" (by simp [exampleKey]) (by intro h; cases h)
    (by intro l hl; rw [← Option.some.inj hl]; rfl) (by intro h; cases h) rfl (by decide) (by
      intro i dest hi
      match i with
      | 0 => exact ⟨_, hl.pub_len _, .inl rfl⟩
      | 1 => exact ⟨_, hl.pub_len _, .inl rfl⟩
      | n + 2 => cases hi)

/-- C114: `yes` and `no` can be told apart by their lengths, `yes` and `not` cannot. -/
example : ∃ t t' t'', (verdict c!"yes").sealJwe (toy fun _ => none) exampleRand (exampleKey 3)
      (some [some ((toy fun _ => none).x25519Pub (exampleKey 1)),
        some ((toy fun _ => none).x25519Pub (exampleKey 2))]) = .ok t ∧
    (verdict c!"no").sealJwe (toy fun _ => none) exampleRand (exampleKey 3)
      (some [some ((toy fun _ => none).x25519Pub (exampleKey 1)),
        some ((toy fun _ => none).x25519Pub (exampleKey 2))]) = .ok t' ∧
    (verdict c!"not").sealJwe (toy fun _ => none) exampleRand (exampleKey 4)
      (some [some ((toy fun _ => none).x25519Pub (exampleKey 1)),
        some ((toy fun _ => none).x25519Pub (exampleKey 2))]) = .ok t'' ∧
    size t ≠ size t' ∧ size t = size t'' := by
  have hl := toy_laws fun _ => none
  obtain ⟨t, h⟩ := verdict_sealed c!"yes" 3
  obtain ⟨t', h'⟩ := verdict_sealed c!"no" 3
  obtain ⟨t'', h''⟩ := verdict_sealed c!"not" 4
  refine ⟨t, t', t'', h, h', h'', ?_, ?_⟩
  · rw [Ne, C114_length (toy fun _ => none) hl exampleRand exampleRand (verdict c!"yes") (verdict c!"no") _ _ _ _ t t' rfl
      (congrArg _ (verdict_didcomm _ _)) (congrArg _ (verdict_didcomm _ _)) rfl h h' HOrd.id HOrd.id]
    simp only [size_message]
    have e1 : memberSize (c!"body", (verdict c!"yes").body) = memberSize (c!"body", (verdict c!"no").body) + 1 := by
      decide
    have e2 : 2 ≤ memberSize (c!"body", (verdict c!"no").body) := Nat.le_add_left _ _
    have e3 : (verdict c!"yes").jwm = (verdict c!"no").jwm := rfl
    have e4 := verdict_didcomm c!"yes" c!"no"
    have e5 : (verdict c!"yes").attachments = (verdict c!"no").attachments := rfl
    simp only [e1, e3, e4, e5]
    omega
  · rw [C114_length (toy fun _ => none) hl exampleRand exampleRand (verdict c!"yes") (verdict c!"not") _ _ _ _ t t'' rfl
      (congrArg _ (verdict_didcomm _ _)) (congrArg _ (verdict_didcomm _ _)) rfl h h'' HOrd.id HOrd.id]
    simp only [size_message]
    have e1 : memberSize (c!"body", (verdict c!"yes").body) = memberSize (c!"body", (verdict c!"not").body) := by
      decide
    have e3 : (verdict c!"yes").jwm = (verdict c!"not").jwm := rfl
    have e4 := verdict_didcomm c!"yes" c!"not"
    have e5 : (verdict c!"yes").attachments = (verdict c!"not").attachments := rfl
    simp only [e1, e3, e4, e5]

end Verif
