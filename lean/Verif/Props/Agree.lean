import Verif.Props.Algo
import Verif.Props.Route
import Verif.Spec.Agree

/-!
# C125: private keys count by their agreements
-/

namespace Verif

open Spec

variable {P : Prims} {S : Bytes → Prop} {a b : Bytes}

theorem agree_refl (h : a.length = 32) : Agree P S a a := ⟨h, h, fun _ _ => rfl⟩

theorem sharedFor_agree (h : Agree P S a b) {did : Str} {key : Option Bytes}
    (hS : ∀ pk, KeyFor P did key pk → S (pk.take 32)) : sharedFor P a did key = sharedFor P b did key := by
  unfold sharedFor
  cases hp : publicKeyFor P did key with
  | ok pk =>
    simp only [Res.bind_ok, arrayRef32_of h.left, arrayRef32_of h.right]
    unfold arrayRef32
    split
    · simp only [Res.bind_ok, h.same _ (hS pk (publicKeyFor_iff.1 hp))]
    · rfl
  | err e => rfl
  | panic => rfl

theorem encryptCek_agree (h : Agree P S a b) {r : RecRand} {m : Message} {dest : Str} {c : Bytes} {key : Option Bytes}
    (hS : ∀ pk, KeyFor P dest key pk → S (pk.take 32)) : encryptCek P r m a dest c key = encryptCek P r m b dest c key := by
  unfold encryptCek generateKek
  rw [sharedFor_agree h hS]

theorem sealRecipients_agree (h : Agree P S a b) {r : Nat → RecRand} {m : Message} {c : Bytes} :
    ∀ (l : List (Str × Option Bytes)) (n : Nat), (∀ x ∈ l, ∀ pk, KeyFor P x.1 x.2 pk → S (pk.take 32)) →
      Message.sealRecipients P r m a c n l = Message.sealRecipients P r m b c n l
  | [], n, _ => rfl
  | (dest, key) :: l, n, hS => by
    unfold Message.sealRecipients
    rw [encryptCek_agree h (hS _ (List.mem_cons_self ..)),
      sealRecipients_agree h l (n + 1) fun x hx => hS x (List.mem_cons_of_mem _ hx)]

/-- C125.  What is sealed depends on the private key of the sender only through the secrets it agrees on with the keys of
the recipients: two private keys for which these are the same give the same text or the same failure, for all random
choices. -/
theorem C125_seal (P : Prims) (a b : Bytes) (r : Message.SealRand) (m : Message) (keys : Option (List (Option Bytes)))
    (h : Agree P (ToKey P m keys) a b) : m.sealJwe P r a keys = m.sealJwe P r b keys := by
  unfold Message.sealJwe
  rw [h.left, h.right]
  cases hp : m.sealKeys keys with
  | ok pks =>
    simp only [Res.bind_ok]
    rw [sealRecipients_agree h _ 0 fun x hx pk hk => ?_]
    obtain ⟨i, hi⟩ := List.mem_iff_getElem?.1 hx
    obtain ⟨h1, h2⟩ := List.getElem?_zip_eq_some.1 hi
    rw [sealKeys_get hp h2] at hk
    exact ⟨i, _, pk, h1, hk, rfl⟩
  | err e => rfl
  | panic => rfl

/-- C125 for messages that are signed and sealed. -/
theorem C125_seal_signed (P : Prims) (a b : Bytes) (r : Message.SealRand) (o : HOrd) (m : Message)
    (keys : Option (List (Option Bytes))) (g : SignAlg) (sigKey : Bytes) (h : Agree P (ToKey P m keys) a b) :
    m.sealSigned P r o a keys g sigKey = m.sealSigned P r o b keys g sigKey := by
  unfold Message.sealSigned
  congr 1
  funext s
  congr 1
  funext v
  exact C125_seal P a b r _ keys h

/-- C125 for messages that go through a mediator. -/
theorem C125_routed (P : Prims) (a b : Bytes) (r1 r2 : Message.SealRand) (uuid : Str) (m : Message)
    (keys : Option (List (Option Bytes))) (mediator : Str) (mk : Option Bytes)
    (h : Agree P (fun k => ToKey P m keys k ∨ ∃ pk, KeyFor P mediator mk pk ∧ k = pk.take 32) a b) :
    m.routedBy P r1 r2 uuid a keys mediator mk = m.routedBy P r1 r2 uuid b keys mediator mk := by
  unfold Message.routedBy
  rw [C125_seal P a b r1 m keys ⟨h.left, h.right, fun pk hk => h.same pk (.inl hk)⟩]
  dsimp only
  congr 1
  funext g
  congr 1
  funext next
  congr 1
  funext s
  cases hb : Message.setBody P _ (printJson (encMediated ((Mediated.new next).withPayload (utf8 s)))) with
  | err e => rfl
  | panic => rfl
  | ok f =>
    simp only [Res.bind_ok]
    refine C125_seal P a b r2 f _ ⟨h.left, h.right, ?_⟩
    rintro k ⟨i, dest, pk, hi, hk, rfl⟩
    have ht : f.didcomm.to = if mediator = [] then [] else [mediator] := by
      simp only [Message.setBody, Res.bind_eq_ok, Res.ofOpt_eq_ok, Res.pure_eq, Res.ok.injEq] at hb
      obtain ⟨v, -, rfl⟩ := hb
      have hd : ∀ m' : Message, (m'.asJwe P g mk).didcomm = m'.didcomm := fun m' => by
        unfold Message.asJwe
        (repeat' split) <;> rfl
      simp only [Message.setTyp, hd, Message.setFrom]
      by_cases hmed : mediator = []
      · subst hmed; rfl
      · rw [if_neg hmed, (C08_to_appends _ _).1]; exact new_to (uuid := uuid) hmed
    rw [ht] at hi
    split at hi
    · cases hi
    · cases i with
      | zero =>
        obtain rfl := Option.some.inj hi
        exact h.same _ (.inr ⟨pk, hk, rfl⟩)
      | succ i => cases hi

theorem decryptCek_agree (h : Agree P S a b) {j : Jwe} {e : Recipient} {key : Option Bytes}
    (h1 : ∀ skid pk, j.getSkid = some skid → KeyFor P skid key pk → S (pk.take 32))
    (h2 : ∀ epk k, e.header.epk = some epk → b64Decode epk.x = some k → S k) :
    decryptCek P j a e key = decryptCek P j b e key := by
  unfold decryptCek
  congr 1
  funext alg
  cases hs : j.getSkid with
  | none => rfl
  | some skid =>
    cases he : e.header.epk with
    | none => rfl
    | some epk =>
      simp only [Res.ofOpt_some, Res.bind_ok]
      cases hk : b64Decode epk.x with
      | none => rfl
      | some k =>
        simp only [Res.ofOpt_some, Res.bind_ok, arrayRef32_of h.left, arrayRef32_of h.right]
        unfold generateKek
        rw [sharedFor_agree h fun pk hpk => h1 _ pk hs hpk]
        split
        · simp only [Res.bind_ok, h.same k (h2 _ _ he hk)]
        · rfl

theorem firstKey_agree (h : Agree P S a b) {j : Jwe} {key : Option Bytes}
    (h1 : ∀ skid pk, j.getSkid = some skid → KeyFor P skid key pk → S (pk.take 32)) :
    ∀ (l : List Recipient), (∀ e ∈ l, ∀ epk k, e.header.epk = some epk → b64Decode epk.x = some k → S k) →
      Message.firstKey P j a key l = Message.firstKey P j b key l
  | [], _ => rfl
  | e :: l, h2 => by
    unfold Message.firstKey
    rw [decryptCek_agree h h1 (h2 e (List.mem_cons_self ..)),
      firstKey_agree h h1 l fun x hx => h2 x (List.mem_cons_of_mem _ hx)]

theorem receiveJwe_agree {t : Str} {ek : Option Bytes} (h : Agree P (EnvelopeKey P t ek) a b) (o : HOrd) :
    Message.receiveJwe P o t a ek = Message.receiveJwe P o t b ek := by
  unfold Message.receiveJwe
  cases hj : Jwe.ofText P.f64 t with
  | none => rfl
  | some j =>
    simp only [Res.ofOpt_some, Res.bind_ok, arrayRef32_of h.left, arrayRef32_of h.right]
    congr 1
    funext alg
    cases hk : Message.senderKey P j ek with
    | err e => rfl
    | panic => rfl
    | ok pk =>
      simp only [Res.bind_ok]
      unfold arrayRef32
      split
      · simp only [Res.bind_ok]
        have hs : EnvelopeKey P t ek (pk.take 32) := by
          refine ⟨j, hj, .inl ?_⟩
          cases ek with
          | some k =>
            obtain rfl := Res.ok.inj hk
            exact ⟨[], k, .inr (by simp), .inl rfl, rfl⟩
          | none =>
            unfold Message.senderKey at hk
            cases h1 : j.getSkid with
            | none => rw [h1] at hk; cases hk
            | some skid =>
              rw [h1] at hk
              simp only [Res.ofOpt_some, Res.bind_ok] at hk
              cases h2 : P.resolve skid with
              | none => rw [h2] at hk; cases hk
              | some d =>
                rw [h2] at hk
                simp only [Res.ofOpt_some, Res.bind_ok, Res.ofOpt_eq_ok] at hk
                exact ⟨skid, pk, .inl rfl, .inr ⟨rfl, d, h2, hk⟩, rfl⟩
        rw [h.same _ hs]
        congr 1
        funext g
        congr 1
        unfold Message.contentKey
        cases hr : Message.recipientsOf j with
        | none => rfl
        | some l =>
          refine firstKey_agree h (fun skid pk h1 h2 => ⟨j, hj, .inl ⟨skid, pk, .inl h1, h2, rfl⟩⟩) l
            fun e he epk k h1 h2 => ⟨j, hj, .inr ⟨e, ?_, epk, h1, h2⟩⟩
          unfold Message.recipientsOf at hr
          cases h3 : j.recipients with
          | some l' => rw [h3] at hr; obtain rfl := Option.some.inj hr; exact he
          | none =>
            rw [h3] at hr
            cases h4 : j.recipient with
            | none => rw [h4] at hr; cases hr
            | some e' =>
              rw [h4] at hr
              obtain rfl := Option.some.inj hr
              exact he
      · rfl

/-- C125.  What is received depends on the private key of the recipient only through the secrets it agrees on with the key
of the sender and the ephemeral keys of the envelope: two private keys for which these are the same give the same message or
the same failure. -/
theorem C125_receive (P : Prims) (a b : Bytes) (o : HOrd) (t : Str) (ek vk : Option Bytes)
    (h : Agree P (EnvelopeKey P t ek) a b) :
    Message.receive P o t (some a) ek vk = Message.receive P o t (some b) ek vk := by
  unfold Message.receive Message.decryptStep
  simp only [Res.ofOpt_some, Res.bind_ok, receiveJwe_agree h]

/-- C125 with X25519 as standardised: private keys of 32 bytes that differ only in the five bits that are overwritten agree
with all public keys, and private keys that have the same public key agree with the public keys of all private keys. -/
theorem C125_bits (P : Prims) (a b : Bytes) (ha : a.length = 32) (hb : b.length = 32) :
    ((∀ i, 3 ≤ i → i < 254 → (Algo.leNat a).testBit i = (Algo.leNat b).testBit i) → Agree P.std (fun _ => True) a b) ∧
    (P.std.x25519Pub a = P.std.x25519Pub b → Agree P.std (fun pk => ∃ c, pk = P.std.x25519Pub c) a b) := by
  refine ⟨fun h => ⟨ha, hb, fun pk _ => ?_⟩, fun h => ⟨ha, hb, ?_⟩⟩
  · have : Algo.clamp a = Algo.clamp b := by
      unfold Algo.clamp
      congr 2
      refine Nat.eq_of_testBit_eq fun i => ?_
      rw [show 8 = 2 ^ 3 from rfl, Nat.testBit_div_two_pow, Nat.testBit_div_two_pow, Nat.testBit_mod_two_pow,
        Nat.testBit_mod_two_pow]
      by_cases hi : i + 3 < 254
      · rw [h (i + 3) (by omega) hi]
      · simp [hi]
    show Algo.x25519 a pk = Algo.x25519 b pk
    unfold Algo.x25519
    rw [this]
  · rintro _ ⟨c, rfl⟩
    rw [C98_same_secret, h, C98_same_secret]

/-! ## Examples -/

/-- Two private keys that differ in a bit that is overwritten agree with all keys. -/
theorem example_agree : exampleKey 1 ≠ 0 :: List.replicate 31 1 ∧
    Agree stdPrims (fun _ => True) (exampleKey 1) (0 :: List.replicate 31 1) := by
  refine ⟨by decide, (C125_bits (toy fun _ => none) _ _ rfl rfl).1 fun i h1 h2 => ?_⟩
  have : Algo.leNat (exampleKey 1) / 8 = Algo.leNat (0 :: List.replicate 31 1) / 8 := by decide +kernel
  obtain ⟨n, rfl⟩ := Nat.exists_eq_add_of_le' h1
  rw [← Nat.testBit_div_two_pow, ← Nat.testBit_div_two_pow, show 2 ^ 3 = 8 from rfl, this]

/-- So they seal the same and receive the same. -/
example (r : Message.SealRand) (m : Message) (keys : Option (List (Option Bytes))) (o : HOrd) (t : Str)
    (ek vk : Option Bytes) : m.sealJwe stdPrims r (exampleKey 1) keys = m.sealJwe stdPrims r (0 :: List.replicate 31 1) keys ∧
    Message.receive stdPrims o t (some (exampleKey 1)) ek vk =
      Message.receive stdPrims o t (some (0 :: List.replicate 31 1)) ek vk :=
  ⟨C125_seal _ _ _ _ _ _ ⟨rfl, rfl, fun pk _ => example_agree.2.same pk trivial⟩,
    C125_receive _ _ _ _ _ _ _ ⟨rfl, rfl, fun pk _ => example_agree.2.same pk trivial⟩⟩

/-- Two private keys that are opposite to each other have one public key and agree with the public keys of private keys, but
not with a key that is of none, such as the coordinate two. -/
example : stdPrims.x25519Pub (Algo.leBytes 32 (2 ^ 254)) = stdPrims.x25519Pub (Algo.leBytes 32 (8 * Algo.ell - 2 ^ 254)) ∧
    Agree stdPrims (fun pk => ∃ c, pk = stdPrims.x25519Pub c) (Algo.leBytes 32 (2 ^ 254))
      (Algo.leBytes 32 (8 * Algo.ell - 2 ^ 254)) ∧
    stdPrims.x25519 (Algo.leBytes 32 (2 ^ 254)) (2 :: List.replicate 31 0) ≠
      stdPrims.x25519 (Algo.leBytes 32 (8 * Algo.ell - 2 ^ 254)) (2 :: List.replicate 31 0) := by
  have h := (C98_same_public (toy fun _ => none) (Algo.leBytes 32 (2 ^ 254)) (Algo.leBytes 32 (8 * Algo.ell - 2 ^ 254))).2
    (.inr (by decide +kernel))
  exact ⟨h, (C125_bits (toy fun _ => none) _ _ (by decide) (by decide)).2 h, by decide +kernel⟩

end Verif
