import Verif.Props.Tamper
import Verif.Lemma.Algo.PolyKeys

/-!
# One envelope, two contents

C123.
-/

namespace Verif

open Spec

namespace Algo

theorem ctrStream_add (k n : Bytes) (a b c : Nat) :
    ctrStream k n (a + b) c = ctrStream k n a c ++ ctrStream k n b (c + a) := by
  induction a generalizing c with
  | zero => simp [ctrStream]
  | succ a ih =>
    rw [show a + 1 + b = (a + b) + 1 by omega, ctrStream, ctrStream, ih, List.append_assoc,
      show c + 1 + a = c + (a + 1) by omega]

theorem ctrStream_get {k n : Bytes} (hk : k.length = 32) (hn : n.length = 12) (N N' i c : Nat) (h : i < 16 * N)
    (h' : i < 16 * N') : (ctrStream k n N c)[i]? = (ctrStream k n N' c)[i]? := by
  have key : ∀ N N', i < 16 * N → N ≤ N' → (ctrStream k n N c)[i]? = (ctrStream k n N' c)[i]? := by
    intro N N' h hle
    obtain ⟨d, rfl⟩ := Nat.exists_eq_add_of_le hle
    rw [ctrStream_add, List.getElem?_append_left (by rw [ctrStream_length hk hn]; exact h)]
  rcases Nat.le_total N N' with hle | hle
  · exact key N N' h hle
  · exact (key N' N h' hle).symm

/-- Byte `i` of the key stream of AES-256-GCM. -/
def ctrByte (k n : Bytes) (i : Nat) : UInt8 := ((ctrStream k n (i / 16 + 1) 2)[i]?).getD 0

theorem aesCtr_get {k n : Bytes} (hk : k.length = 32) (hn : n.length = 12) (m : Bytes) (i : Nat) :
    (aesCtr k n m)[i]? = (m[i]?).map (· ^^^ ctrByte k n i) := by
  unfold aesCtr xorBytes
  rw [List.getElem?_zipWith]
  by_cases hi : i < m.length
  · rw [List.getElem?_eq_getElem hi, ctrStream_get hk hn _ (i / 16 + 1) i 2 (by omega) (by omega), ctrByte,
      List.getElem?_eq_getElem (by rw [ctrStream_length hk hn]; omega)]
    rfl
  · rw [List.getElem?_eq_none (by omega)]
    rfl

theorem xor_xor_cancel (a b : UInt8) : a ^^^ b ^^^ b = a := by
  rw [UInt8.xor_assoc, UInt8.xor_self, UInt8.xor_zero]

theorem ctrByte_first {k n : Bytes} (hk : k.length = 32) (hn : n.length = 12) {i : Nat} (hi : i < 16) :
    (aes256 k (n ++ [0, 0, 0, 2]))[i]? = some (ctrByte k n i) := by
  have hs : ctrStream k n 1 2 = aes256 k (n ++ [0, 0, 0, 2]) := by
    rw [ctrStream, ctrStream, List.append_nil]
    rfl
  rw [ctrByte, show i / 16 + 1 = 1 by omega, hs,
    List.getElem?_eq_getElem (by rw [aes256_length hk (by simp [hn])]; exact hi)]
  rfl

/-- Key streams that differ in the first block give different contents. -/
theorem aesCtr_ne {k k' n : Bytes} (hk : k.length = 32) (hk' : k'.length = 32) (hn : n.length = 12) {c : Bytes}
    (hc : 16 ≤ c.length) (hne : aes256 k (n ++ [0, 0, 0, 2]) ≠ aes256 k' (n ++ [0, 0, 0, 2])) :
    aesCtr k n c ≠ aesCtr k' n c := by
  intro h
  refine hne (List.ext_getElem? fun i => ?_)
  by_cases hi : i < 16
  · rw [ctrByte_first hk hn hi, ctrByte_first hk' hn hi]
    have e := congrArg (·[i]?) h
    simp only [aesCtr_get hk hn, aesCtr_get hk' hn] at e
    rw [List.getElem?_eq_getElem (show i < c.length by omega)] at e
    simp only [Option.map_some, Option.some.injEq] at e
    have e2 := congrArg (fun x => c[i] ^^^ x) e
    simp only [← UInt8.xor_assoc, UInt8.xor_self, UInt8.zero_xor] at e2
    rw [e2]
  · rw [List.getElem?_eq_none (by rw [aes256_length hk (by simp [hn])]; omega),
      List.getElem?_eq_none (by rw [aes256_length hk' (by simp [hn])]; omega)]

end Algo

open Algo in
/-- What two keys with different hash keys make of one ciphertext and tag: the bytes before the last block can be
chosen, at each place for one of the two. -/
theorem gcm_two_keys {k k' iv : Bytes} (hk : k.length = 32) (hk' : k'.length = 32) (hiv : iv.length = 12)
    (hne : gcmPlace k ≠ gcmPlace k') (aad m m' : Bytes) (hm : 16 ∣ m.length) (hl : m'.length = m.length)
    (pick : Nat → Bool) :
    ∃ c t p p', t.length = 16 ∧ gcmOpen k iv aad (c ++ t) = some p ∧ gcmOpen k' iv aad (c ++ t) = some p' ∧
      p.length = m.length + 16 ∧ p'.length = m.length + 16 ∧
      (∀ i < m.length, if pick i then p[i]? = m[i]? else p'[i]? = m'[i]?) ∧
      (aes256 k (iv ++ [0, 0, 0, 2]) ≠ aes256 k' (iv ++ [0, 0, 0, 2]) → p ≠ p') := by
  let c := List.ofFn fun i : Fin m.length =>
    if pick i then m[i.1]'i.2 ^^^ ctrByte k iv i else m'[i.1]'(by omega) ^^^ ctrByte k' iv i
  have hc : c.length = m.length := List.length_ofFn
  obtain ⟨x, hx, ht, -⟩ := gcmTag_two_keys hk hk' hiv hiv hne aad c (by rw [hc]; exact hm)
  have hop : ∀ key, key.length = 32 → gcmTag key iv aad (c ++ x) = gcmTag k iv aad (c ++ x) →
      gcmOpen key iv aad (c ++ x ++ gcmTag k iv aad (c ++ x)) = some (aesCtr key iv (c ++ x)) := by
    intro key hkey he
    unfold gcmOpen
    rw [if_neg (by rw [List.length_append, gcmTag_length]; omega)]
    simp only [List.length_append, gcmTag_length, Nat.add_sub_cancel]
    rw [← List.length_append, List.take_left, List.drop_left, if_pos he.symm]
  refine ⟨c ++ x, gcmTag k iv aad (c ++ x), _, _, gcmTag_length .., hop k hk rfl, hop k' hk' ht.symm,
    by rw [aesCtr_length hk hiv, List.length_append, hc, hx], by rw [aesCtr_length hk' hiv, List.length_append, hc, hx], ?_,
    aesCtr_ne hk hk' hiv (by rw [List.length_append]; omega)⟩
  intro i hi
  have hci : c[i]? = some (if pick i then m[i]'hi ^^^ ctrByte k iv i else m'[i]'(by omega) ^^^ ctrByte k' iv i) := by
    rw [List.getElem?_eq_getElem (by rw [hc]; exact hi)]
    simp [c]
  split
  · rename_i hp
    rw [aesCtr_get hk hiv, List.getElem?_append_left (by rw [hc]; exact hi), hci, if_pos hp, List.getElem?_eq_getElem hi,
      Option.map_some, xor_xor_cancel]
  · rename_i hp
    rw [aesCtr_get hk' hiv, List.getElem?_append_left (by rw [hc]; exact hi), hci, if_neg hp,
      List.getElem?_eq_getElem (by omega), Option.map_some, xor_xor_cancel]

/-- The same content key for another ciphertext and tag. -/
theorem contentKey_content {P : Prims} {j : Jwe} {alg : Str} {sk spk key : Bytes} (c : Str) (t : Option Str)
    (h : ContentKey P j alg sk spk key) : ContentKey P { j with ciphertext := c, tag := t } alg sk spk key := h

/-- C123, violated: an envelope does not have one content.  Whatever header, iv and entries, if two readers get content
keys with different hash keys (AES-256-GCM), there is a ciphertext and a tag that both accept.  The bytes before the
last 16 can be chosen: at each place what the one reads or what the other reads.  The contents differ if the key
streams differ in the first block. -/
theorem C123_violated (P : Prims) (o : HOrd) (j : Jwe) (hdr : JwmHeader) (sk sk' spk spk' k k' iv m m' : Bytes)
    (ek ek' : Option Bytes) (halg : j.getAlg = some c!"ECDH-1PU+A256KW") (hp : j.protected_ = some hdr)
    (hs : SenderKey P.std j ek spk) (hs' : SenderKey P.std j ek' spk')
    (h1 : 32 ≤ sk.length) (h2 : 32 ≤ spk.length) (h1' : 32 ≤ sk'.length) (h2' : 32 ≤ spk'.length)
    (hk : ContentKey P.std j c!"ECDH-1PU+A256KW" sk spk k) (hk' : ContentKey P.std j c!"ECDH-1PU+A256KW" sk' spk' k')
    (hl : k.length = 32) (hl' : k'.length = 32) (hne : gcmPlace k ≠ gcmPlace k')
    (hiv : b64Decode j.iv = some iv) (hivl : 12 ≤ iv.length)
    (hm : 16 ∣ m.length) (hm' : m'.length = m.length) (pick : Nat → Bool) :
    ∃ c t p p', Opens P.std o { j with ciphertext := c, tag := some t } sk ek p ∧
      Opens P.std o { j with ciphertext := c, tag := some t } sk' ek' p' ∧
      p.length = m.length + 16 ∧ p'.length = m.length + 16 ∧
      (∀ i < m.length, if pick i then p[i]? = m[i]? else p'[i]? = m'[i]?) ∧
      (Algo.aes256 k (iv.take 12 ++ [0, 0, 0, 2]) ≠ Algo.aes256 k' (iv.take 12 ++ [0, 0, 0, 2]) → p ≠ p') := by
  obtain ⟨c, t, p, p', -, e, e', hpl, hpl', hch⟩ := gcm_two_keys (iv := iv.take 12) hl hl' (by simp [hivl]) hne
    (utf8 (headerB64 o hdr)) m m' hm hm' pick
  refine ⟨b64Encode c, b64Encode t, p, p', ?_, ?_, hpl, hpl', hch⟩
  · exact ⟨_, spk, k, hdr, c, _, t, iv, halg, by decide, hs, h1, h2, hk, hl, hp, b64Decode_encode _, rfl,
      b64Decode_encode _, hiv, hivl, (by intro h; exact absurd h (by decide)), .inr ⟨rfl, e⟩⟩
  · exact ⟨_, spk', k', hdr, c, _, t, iv, halg, by decide, hs', h1', h2', hk', hl', hp, b64Decode_encode _, rfl,
      b64Decode_encode _, hiv, hivl, (by intro h; exact absurd h (by decide)), .inr ⟨rfl, e'⟩⟩

/-- C123, what holds: for two keys with different hash keys and any beginning of the ciphertext there is at most one
last block, of `2 ^ 128`, with which some tag is accepted under both. -/
theorem C123_one_block_partial (P : Prims) (k k' iv aad c : Bytes) (hne : gcmPlace k ≠ gcmPlace k') (hc : 16 ∣ c.length) :
    ∃ x, ∀ y t p p', y.length = 16 → t.length = 16 → CryptoAlg.decrypter P.std .a256gcm iv k (c ++ y ++ t) aad = .ok p →
      CryptoAlg.decrypter P.std .a256gcm iv k' (c ++ y ++ t) aad = .ok p' → y = x := by
  have key : ∀ {k y t p : Bytes}, t.length = 16 → CryptoAlg.decrypter P.std .a256gcm iv k (c ++ y ++ t) aad = .ok p →
      k.length = 32 ∧ 12 ≤ iv.length ∧ Algo.gcmTag k (iv.take 12) aad (c ++ y) = t := by
    intro k y t p ht h
    obtain ⟨h1, h2, -, h3⟩ := (decrypter_ok_iff (alg := c!"ECDH-1PU+A256KW") rfl).1 h
    refine ⟨h1, h2, ?_⟩
    rcases h3 with ⟨h3, -⟩ | ⟨-, h3⟩
    · exact absurd h3 (by decide)
    · change Algo.gcmOpen k (iv.take 12) aad (c ++ y ++ t) = some p at h3
      unfold Algo.gcmOpen at h3
      rw [List.length_append (as := c ++ y), ht, Nat.add_sub_cancel, List.take_left, List.drop_left] at h3
      split at h3
      · cases h3
      · dsimp only at h3
        split at h3
        · rename_i he; exact he.symm
        · cases h3
  by_cases h : k.length = 32 ∧ k'.length = 32 ∧ 12 ≤ iv.length
  · obtain ⟨x, -, -, hx⟩ := Algo.gcmTag_two_keys h.1 h.2.1 (nonce := iv.take 12) (nonce' := iv.take 12)
      (by simp [h.2.2]) (by simp [h.2.2]) hne aad c hc
    refine ⟨x, fun y t p p' hy ht e e' => hx y hy ?_⟩
    rw [(key ht e).2.2, (key ht e').2.2]
  · refine ⟨[], fun y t p p' hy ht e e' => absurd ⟨(key ht e).1, (key ht e').1, (key ht e).2.1⟩ h⟩

/-- The header of the example message for AES-256-GCM. -/
def gcmHeadMessage : Message := { exampleMessage with jwm := { exampleMessage.jwm with alg := some c!"ECDH-1PU+A256KW" } }

/-- C123: two readers of an envelope without entries, one of whom reads sixteen letters `a` first, and the other
sixteen letters `b` after sixteen other bytes. -/
example : ∃ c t p p',
    Opens (toy fun _ => none).std HOrd.id { bareEnvelope gcmHeadMessage [] [] with ciphertext := c, tag := some t }
      (exampleKey 1) (some (exampleKey 3)) p ∧
    Opens (toy fun _ => none).std HOrd.id { bareEnvelope gcmHeadMessage [] [] with ciphertext := c, tag := some t }
      (exampleKey 2) (some (exampleKey 3)) p' ∧ p ≠ p' ∧ (∀ i < 16, p[i]? = some 97) ∧
      ∀ i < 16, p'[16 + i]? = some 98 := by
  obtain ⟨c, t, p, p', h1, h2, h3, h4, h5, h6⟩ := C123_violated (toy fun _ => none) HOrd.id (bareEnvelope gcmHeadMessage [] [])
    (Spec.publicHeader gcmHeadMessage) (exampleKey 1) (exampleKey 2) (exampleKey 3) (exampleKey 3) _ _
    (List.replicate 24 8) (List.replicate 32 97) (List.replicate 32 98) (some (exampleKey 3)) (some (exampleKey 3))
    rfl rfl (.inl rfl) (.inl rfl) (by decide) (by decide) (by decide) (by decide) (.inr ⟨rfl, rfl⟩) (.inr ⟨rfl, rfl⟩)
    (by decide +kernel) (by decide +kernel) (by decide +kernel) (b64Decode_encode _) (by decide) (by decide) (by decide)
    (fun i => decide (i < 16))
  refine ⟨c, t, p, p', h1, h2, h6 (by decide +kernel), fun i hi => ?_, fun i hi => ?_⟩
  · have := h5 i (by simp; omega)
    rw [if_pos (by simpa using hi), List.getElem?_replicate, if_pos (by omega)] at this
    exact this
  · have := h5 (16 + i) (by simp; omega)
    rw [if_neg (by simp), List.getElem?_replicate, if_pos (by omega)] at this
    exact this

/-- C123, what holds: the two keys of the example. -/
example : gcmPlace (List.replicate 32 1) ≠ gcmPlace (List.replicate 32 2) := by decide +kernel

/-! ## XChaCha20-Poly1305 -/

namespace Algo

theorem chaStream_add (k n : Bytes) (a b c : Nat) :
    chaStream k n (a + b) c = chaStream k n a c ++ chaStream k n b (c + a) := by
  induction a generalizing c with
  | zero => simp [chaStream]
  | succ a ih =>
    rw [show a + 1 + b = (a + b) + 1 by omega, chaStream, chaStream, ih, List.append_assoc,
      show c + 1 + a = c + (a + 1) by omega]

theorem chaStream_get (k n : Bytes) (N N' i c : Nat) (h : i < 64 * N) (h' : i < 64 * N') :
    (chaStream k n N c)[i]? = (chaStream k n N' c)[i]? := by
  have key : ∀ N N', i < 64 * N → N ≤ N' → (chaStream k n N c)[i]? = (chaStream k n N' c)[i]? := by
    intro N N' h hle
    obtain ⟨d, rfl⟩ := Nat.exists_eq_add_of_le hle
    rw [chaStream_add, List.getElem?_append_left (by rw [chaStream_length]; exact h)]
  rcases Nat.le_total N N' with hle | hle
  · exact key N N' h hle
  · exact (key N' N h' hle).symm

/-- Byte `i` of the key stream of ChaCha20-Poly1305. -/
def chaByte (k n : Bytes) (i : Nat) : UInt8 := ((chaStream k n (i / 64 + 1) 1)[i]?).getD 0

theorem chacha20_get (k n m : Bytes) (i : Nat) : (chacha20 k 1 n m)[i]? = (m[i]?).map (· ^^^ chaByte k n i) := by
  unfold chacha20 xorBytes
  rw [List.getElem?_zipWith]
  by_cases hi : i < m.length
  · rw [List.getElem?_eq_getElem hi, chaStream_get k n _ (i / 64 + 1) i 1 (by omega) (by omega), chaByte,
      List.getElem?_eq_getElem (by rw [chaStream_length]; omega)]
    rfl
  · rw [List.getElem?_eq_none (by omega)]
    rfl

theorem chaByte_first (k n : Bytes) {i : Nat} (hi : i < 64) : (chaBlock k 1 n)[i]? = some (chaByte k n i) := by
  have hs : chaStream k n 1 1 = chaBlock k 1 n := by rw [chaStream, chaStream, List.append_nil]
  rw [chaByte, show i / 64 + 1 = 1 by omega, hs, List.getElem?_eq_getElem (by rw [chaBlock_length]; exact hi)]
  rfl

/-- Key streams that differ in the first block give different contents. -/
theorem chacha20_ne {k k' n n' c : Bytes} (hc : 64 ≤ c.length) (hne : chaBlock k 1 n ≠ chaBlock k' 1 n') :
    chacha20 k 1 n c ≠ chacha20 k' 1 n' c := by
  intro h
  refine hne (List.ext_getElem? fun i => ?_)
  by_cases hi : i < 64
  · rw [chaByte_first k n hi, chaByte_first k' n' hi]
    have e := congrArg (·[i]?) h
    simp only [chacha20_get] at e
    rw [List.getElem?_eq_getElem (show i < c.length by omega)] at e
    simp only [Option.map_some, Option.some.injEq] at e
    have e2 := congrArg (fun x => c[i] ^^^ x) e
    simp only [← UInt8.xor_assoc, UInt8.xor_self, UInt8.zero_xor] at e2
    rw [e2]
  · rw [List.getElem?_eq_none (by rw [chaBlock_length]; omega), List.getElem?_eq_none (by rw [chaBlock_length]; omega)]

/-- The first block of the key stream of XChaCha20-Poly1305. -/
def xcFirst (k iv : Bytes) : Bytes := chaBlock (hchacha20 k (iv.take 16)) 1 (xNonce iv)

end Algo

open Algo in
/-- What two keys with different places make of one ciphertext and tag: the bytes before the last sixteen blocks can
be chosen, at each place for one of the two. -/
theorem xc_two_keys {k k' iv : Bytes} (hk : k.length = 32) (hk' : k'.length = 32) (hiv : iv.length = 24)
    (hne : xcPlace k iv ≠ xcPlace k' iv) (aad m m' : Bytes) (hm : 16 ∣ m.length) (hl : m'.length = m.length)
    (pick : Nat → Bool) :
    ∃ c t p p', t.length = 16 ∧ xchachaOpen k iv aad (c ++ t) = some p ∧ xchachaOpen k' iv aad (c ++ t) = some p' ∧
      p.length = m.length + 256 ∧ p'.length = m.length + 256 ∧
      (∀ i < m.length, if pick i then p[i]? = m[i]? else p'[i]? = m'[i]?) ∧
      (xcFirst k iv ≠ xcFirst k' iv → p ≠ p') := by
  set q := hchacha20 k (iv.take 16) with hq
  set q' := hchacha20 k' (iv.take 16) with hq'
  set n := xNonce iv with hn
  let c := List.ofFn fun i : Fin m.length =>
    if pick i then m[i.1]'i.2 ^^^ chaByte q n i else m'[i.1]'(by omega) ^^^ chaByte q' n i
  have hc : c.length = m.length := List.length_ofFn
  obtain ⟨x, hx, ht⟩ := chaTag_two_keys (key := q) (key' := q') (nonce := n) (nonce' := n) hne aad c
    (by rw [hc]; exact hm)
  have hop : ∀ key : Bytes, key.length = 32 →
      chaTag (hchacha20 key (iv.take 16)) n aad (c ++ x) = chaTag q n aad (c ++ x) →
      xchachaOpen key iv aad (c ++ x ++ chaTag q n aad (c ++ x)) =
        some (chacha20 (hchacha20 key (iv.take 16)) 1 n (c ++ x)) := by
    intro key hkey he
    unfold xchachaOpen chaOpen
    rw [if_neg (by omega), if_neg (by rw [List.length_append, chaTag_length]; omega)]
    simp only [List.length_append, chaTag_length, Nat.add_sub_cancel]
    rw [← List.length_append, List.take_left, List.drop_left, ← hn, if_pos he.symm]
  refine ⟨c ++ x, chaTag q n aad (c ++ x), _, _, chaTag_length .., hop k hk rfl, hop k' hk' ht.symm,
    by rw [chacha20_length, List.length_append, hc, hx], by rw [chacha20_length, List.length_append, hc, hx], ?_,
    chacha20_ne (by rw [List.length_append]; omega)⟩
  intro i hi
  have hci : c[i]? = some (if pick i then m[i]'hi ^^^ chaByte q n i else m'[i]'(by omega) ^^^ chaByte q' n i) := by
    rw [List.getElem?_eq_getElem (by rw [hc]; exact hi)]
    simp [c]
  split
  · rename_i hp
    rw [chacha20_get, List.getElem?_append_left (by rw [hc]; exact hi), hci, if_pos hp, List.getElem?_eq_getElem hi,
      Option.map_some, ← hq, xor_xor_cancel]
  · rename_i hp
    rw [chacha20_get, List.getElem?_append_left (by rw [hc]; exact hi), hci, if_neg hp,
      List.getElem?_eq_getElem (by omega), Option.map_some, ← hq', xor_xor_cancel]

/-- C123, violated with XChaCha20-Poly1305 as well: if two readers get content keys with different one-time places,
there is a ciphertext and a tag that both accept.  The bytes before the last 256 can be chosen: at each place what the
one reads or what the other reads. -/
theorem C123_xc_violated (P : Prims) (o : HOrd) (j : Jwe) (hdr : JwmHeader) (sk sk' spk spk' k k' iv m m' : Bytes)
    (ek ek' : Option Bytes) (halg : j.getAlg = some c!"ECDH-1PU+XC20PKW") (hp : j.protected_ = some hdr)
    (hs : SenderKey P.std j ek spk) (hs' : SenderKey P.std j ek' spk')
    (h1 : 32 ≤ sk.length) (h2 : 32 ≤ spk.length) (h1' : 32 ≤ sk'.length) (h2' : 32 ≤ spk'.length)
    (hk : ContentKey P.std j c!"ECDH-1PU+XC20PKW" sk spk k) (hk' : ContentKey P.std j c!"ECDH-1PU+XC20PKW" sk' spk' k')
    (hl : k.length = 32) (hl' : k'.length = 32) (hiv : b64Decode j.iv = some iv) (hivl : iv.length = 24)
    (hne : xcPlace k iv ≠ xcPlace k' iv) (hm : 16 ∣ m.length) (hm' : m'.length = m.length) (pick : Nat → Bool) :
    ∃ c t p p', Opens P.std o { j with ciphertext := c, tag := some t } sk ek p ∧
      Opens P.std o { j with ciphertext := c, tag := some t } sk' ek' p' ∧
      p.length = m.length + 256 ∧ p'.length = m.length + 256 ∧
      (∀ i < m.length, if pick i then p[i]? = m[i]? else p'[i]? = m'[i]?) ∧
      (Algo.xcFirst k iv ≠ Algo.xcFirst k' iv → p ≠ p') := by
  obtain ⟨c, t, p, p', -, e, e', hpl, hpl', hch⟩ := xc_two_keys hl hl' hivl hne (utf8 (headerB64 o hdr)) m m' hm hm' pick
  refine ⟨b64Encode c, b64Encode t, p, p', ?_, ?_, hpl, hpl', hch⟩
  · exact ⟨_, spk, k, hdr, c, _, t, iv, halg, by decide, hs, h1, h2, hk, hl, hp, b64Decode_encode _, rfl,
      b64Decode_encode _, hiv, hivl.symm ▸ (by decide), fun _ => hivl, .inl ⟨rfl, e⟩⟩
  · exact ⟨_, spk', k', hdr, c, _, t, iv, halg, by decide, hs', h1', h2', hk', hl', hp, b64Decode_encode _, rfl,
      b64Decode_encode _, hiv, hivl.symm ▸ (by decide), fun _ => hivl, .inl ⟨rfl, e'⟩⟩

/-- C123, what holds with XChaCha20-Poly1305: for two keys with different places and any beginning of the ciphertext
there are at most eight last blocks, of `2 ^ 128`, with which some tag is accepted under both. -/
theorem C123_few_blocks_partial (P : Prims) (k k' iv aad c : Bytes) (hne : xcPlace k iv ≠ xcPlace k' iv)
    (hc : 16 ∣ c.length) :
    ∃ S : Finset Nat, S.card ≤ 8 ∧ ∀ y t p p', y.length = 16 → t.length = 16 →
      CryptoAlg.decrypter P.std .xc20p iv k (c ++ y ++ t) aad = .ok p →
      CryptoAlg.decrypter P.std .xc20p iv k' (c ++ y ++ t) aad = .ok p' → Algo.leNat y ∈ S := by
  obtain ⟨S, hS, h⟩ := Algo.chaTag_few_last (key := Algo.hchacha20 k (iv.take 16))
    (key' := Algo.hchacha20 k' (iv.take 16)) (nonce := Algo.xNonce iv) (nonce' := Algo.xNonce iv) hne aad c hc
  have key : ∀ {k y t p : Bytes}, t.length = 16 → CryptoAlg.decrypter P.std .xc20p iv k (c ++ y ++ t) aad = .ok p →
      Algo.chaTag (Algo.hchacha20 k (iv.take 16)) (Algo.xNonce iv) aad (c ++ y) = t := by
    intro k y t p ht h
    obtain ⟨h1, h2, -, h3⟩ := (decrypter_ok_iff (alg := c!"ECDH-1PU+XC20PKW") rfl).1 h
    rcases h3 with ⟨-, h3⟩ | ⟨h3, -⟩
    · change Algo.xchachaOpen k iv aad (c ++ y ++ t) = some p at h3
      unfold Algo.xchachaOpen Algo.chaOpen at h3
      rw [List.length_append (as := c ++ y), ht, Nat.add_sub_cancel, List.take_left, List.drop_left] at h3
      split at h3
      · cases h3
      · split at h3
        · cases h3
        · dsimp only at h3
          split at h3
          · rename_i he; exact he.symm
          · cases h3
    · exact absurd h3 (by decide)
  exact ⟨S, hS, fun y t p p' hy ht e e' => h y hy (by rw [key ht e, key ht e'])⟩

/-- C123 with XChaCha20-Poly1305: two readers of an envelope without entries, one of whom reads sixteen letters `a`
first, and the other sixteen letters `b` after sixteen other bytes. -/
example : ∃ c t p p',
    Opens (toy fun _ => none).std HOrd.id { bareEnvelope exampleMessage [] [] with ciphertext := c, tag := some t }
      (exampleKey 1) (some (exampleKey 3)) p ∧
    Opens (toy fun _ => none).std HOrd.id { bareEnvelope exampleMessage [] [] with ciphertext := c, tag := some t }
      (exampleKey 2) (some (exampleKey 3)) p' ∧ p ≠ p' ∧ (∀ i < 16, p[i]? = some 97) ∧
      ∀ i < 16, p'[16 + i]? = some 98 := by
  obtain ⟨c, t, p, p', h1, h2, h3, h4, h5, h6⟩ := C123_xc_violated (toy fun _ => none) HOrd.id
    (bareEnvelope exampleMessage [] [])
    (Spec.publicHeader exampleMessage) (exampleKey 1) (exampleKey 2) (exampleKey 3) (exampleKey 3) _ _
    (List.replicate 24 8) (List.replicate 32 97) (List.replicate 32 98) (some (exampleKey 3)) (some (exampleKey 3))
    rfl rfl (.inl rfl) (.inl rfl) (by decide) (by decide) (by decide) (by decide) (.inr ⟨rfl, rfl⟩) (.inr ⟨rfl, rfl⟩)
    (by decide +kernel) (by decide +kernel) (b64Decode_encode _) (by decide) (by decide +kernel) (by decide) (by decide)
    (fun i => decide (i < 16))
  refine ⟨c, t, p, p', h1, h2, h6 (by decide +kernel), fun i hi => ?_, fun i hi => ?_⟩
  · have := h5 i (by simp; omega)
    rw [if_pos (by simpa using hi), List.getElem?_replicate, if_pos (by omega)] at this
    exact this
  · have := h5 (16 + i) (by simp; omega)
    rw [if_neg (by simp), List.getElem?_replicate, if_pos (by omega)] at this
    exact this

/-- C123, what holds with XChaCha20-Poly1305: the places of two keys. -/
example : xcPlace (List.replicate 32 1) (List.replicate 24 8) ≠ xcPlace (List.replicate 32 2) (List.replicate 24 8) := by
  decide +kernel

end Verif
