import Verif.Props.Whole

/-!
# Everyone who accepts a text reads the same

C116.
-/

namespace Verif

open Spec

theorem signs_payload {P : Prims} {o : HOrd} {t : Str} {key : Bytes} {v : Message} (h : Signs P o t key v) :
    ∃ j pt, Jws.ofText P.f64 t = some j ∧ b64Decode j.payload = some pt ∧ Message.ofBytes P.f64 pt = some v := by
  obtain ⟨j, -, -, pt, hj, -, -, -, hp, hv⟩ := h
  exact ⟨j, pt, hj, hp, hv⟩

theorem signs_unique {P : Prims} {o o' : HOrd} {t : Str} {key key' : Bytes} {v v' : Message}
    (h : Signs P o t key v) (h' : Signs P o' t key' v') : v = v' := by
  obtain ⟨j, pt, hj, hp, hv⟩ := signs_payload h
  obtain ⟨j', pt', hj', hp', hv'⟩ := signs_payload h'
  obtain rfl : j = j' := Option.some.inj (hj.symm.trans hj')
  obtain rfl : pt = pt' := Option.some.inj (hp.symm.trans hp')
  exact Option.some.inj (hv.symm.trans hv')

/-- Two texts that are read alike, as message and as JWS, hold the same signed message. -/
theorem holds_unique {P : Prims} {o o' : HOrd} {s s' : Str} {vk vk' : Option Bytes} {v v' : Message}
    (hm : Message.ofText P.f64 s = Message.ofText P.f64 s') (hj : Jws.ofText P.f64 s = Jws.ofText P.f64 s')
    (h : Holds P o s vk v) (h' : Holds P o' s' vk' v') : v = v' := by
  rcases h with ⟨x, k, hx, -, -, h⟩ | ⟨hx, j, i, sg, k, -, -, -, -, h, -⟩ <;>
    rcases h' with ⟨x', k', hx', -, -, h'⟩ | ⟨hx', j', i', sg', k', -, -, -, -, h', -⟩ <;>
    rw [hm, hx'] at hx
  · obtain rfl := Option.some.inj hx
    exact signs_unique h h'
  · cases hx
  · cases hx
  · obtain ⟨j, pt, hj1, hp, hv⟩ := signs_payload h
    obtain ⟨j', pt', hj2, hp', hv'⟩ := signs_payload h'
    rw [hj, hj2] at hj1
    obtain rfl := Option.some.inj hj1
    obtain rfl : pt = pt' := Option.some.inj (hp.symm.trans hp')
    exact Option.some.inj (hv.symm.trans hv')

theorem reread_unique {P : Prims} {v m m' : Message} (h : Reread P v m) (h' : Reread P v m') : m = m' := by
  obtain ⟨-, b, hb, rfl⟩ := h
  obtain ⟨-, b', hb', rfl⟩ := h'
  rw [Option.some.inj ((normJ_iff.2 hb).symm.trans (normJ_iff.2 hb'))]

/-- C116.  Whoever accepts a text, with whatever keys and map orders, reads the same message, provided that those for
whom it is an envelope get the same bytes out of it.  Keys decide whether a text is accepted, never what it says. -/
theorem C116_one_reading (P : Prims) (hP : Laws P) (o o' : HOrd) (s : Str) (sk ek vk sk' ek' vk' : Option Bytes)
    (m m' : Message) (h : Message.receive P o s sk ek vk = .ok m) (h' : Message.receive P o' s sk' ek' vk' = .ok m')
    (hopen : KindOf P s .jwe → ∀ j k k' pt pt', Jwe.ofText P.f64 s = some j → sk = some k → sk' = some k' →
      Opens P ((o.sub 0).sub 0) j k ek pt → Opens P ((o'.sub 0).sub 0) j k' ek' pt' → pt = pt') : m = m' := by
  rw [C112_receive_iff P hP] at h h'
  rcases h with ⟨⟨ty, hk, h1, h2⟩, h⟩ | ⟨hk, v, hv, h⟩ | ⟨hk, k, j, pt, m0, t, hsk, hj, hop, hm, rfl, h⟩ <;>
    rcases h' with ⟨⟨ty', hk', h1', h2'⟩, h'⟩ | ⟨hk', v', hv', h'⟩ | ⟨hk', k', j', pt', m0', t', hsk', hj', hop', hm', rfl, h'⟩ <;>
    have hkk := kind_unique hk hk'
  · exact Option.some.inj (h.symm.trans h')
  · exact absurd hkk h2
  · exact absurd hkk h1
  · exact absurd hkk.symm h2'
  · obtain rfl := holds_unique rfl rfl hv hv'
    exact reread_unique h h'
  · cases hkk
  · exact absurd hkk.symm h1'
  · cases hkk
  · obtain rfl : j = j' := Option.some.inj (hj.symm.trans hj')
    obtain rfl := hopen hk j k k' pt pt' hj hsk hsk' hop hop'
    obtain rfl : m0 = m0' := Option.some.inj (hm.symm.trans hm')
    obtain ⟨x, hn, hd⟩ := ofBytes_doc hm
    have hpt := decMessage_parts (fun _ _ => hP.f64_tok) hd hn
    have hkind : KindOf P (m0.text ((o.sub 0).sub 1)) .jws ↔ KindOf P (m0.text ((o'.sub 0).sub 1)) .jws := by
      obtain ⟨es, he⟩ := text_object ((o.sub 0).sub 1) hpt.nums
      obtain ⟨es', he'⟩ := text_object ((o'.sub 0).sub 1) hpt.nums
      rw [← kind_iff he, ← kind_iff he', messageType_order hpt _ ((o'.sub 0).sub 1)]
    rcases h with ⟨h1, h⟩ | ⟨h1, v, hv, h⟩ <;> rcases h' with ⟨h1', h'⟩ | ⟨h1', v', hv', h'⟩
    · exact reread_unique h h'
    · exact absurd (hkind.2 h1') h1
    · exact absurd (hkind.1 h1) h1'
    · obtain rfl := holds_unique (ofText_order hpt _ _) (jws_ofText_order hpt _ _) hv hv'
      exact reread_unique h h'

/-- C116 for texts that are not encrypted: no condition at all. -/
theorem C116_plain_or_signed (P : Prims) (hP : Laws P) (o o' : HOrd) (s : Str) (sk ek vk sk' ek' vk' : Option Bytes)
    (m m' : Message) (h : Message.receive P o s sk ek vk = .ok m) (h' : Message.receive P o' s sk' ek' vk' = .ok m')
    (hs : ¬KindOf P s .jwe) : m = m' :=
  C116_one_reading P hP o o' s sk ek vk sk' ek' vk' m m' h h' fun hk => absurd hk hs

/-- C116 for envelopes whose header has at most one custom member: receivers who find the same content key read the
same message. -/
theorem C116_same_key (P : Prims) (hP : Laws P) (o o' : HOrd) (s : Str) (k k' : Bytes) (ek vk ek' vk' : Option Bytes)
    (m m' : Message) (j : Jwe) (hdr : JwmHeader) (hj : Jwe.ofText P.f64 s = some j) (hp : j.protected_ = some hdr)
    (hf : HeaderFixed hdr)
    (h : Message.receive P o s (some k) ek vk = .ok m) (h' : Message.receive P o' s (some k') ek' vk' = .ok m')
    (hkey : ∀ alg spk spk' key key', ContentKey P j alg k spk key → ContentKey P j alg k' spk' key' →
      SenderKey P j ek spk → SenderKey P j ek' spk' → key = key') : m = m' := by
  refine C116_one_reading P hP o o' s (some k) ek vk (some k') ek' vk' m m' h h' fun _ j1 k1 k1' pt pt' hj1 e1 e2 h1 h2 => ?_
  obtain rfl : j = j1 := Option.some.inj (hj.symm.trans hj1)
  obtain rfl := Option.some.inj e1
  obtain rfl := Option.some.inj e2
  obtain ⟨alg, spk, key, hd, c, tt, tag, iv, a1, a2, a3, a4, a5, a6, a7, a8, a9, a10, a11, a12, a13, a14, a15⟩ := h1
  obtain ⟨alg', spk', key', hd', c', tt', tag', iv', b1, b2, b3, b4, b5, b6, b7, b8, b9, b10, b11, b12, b13, b14, b15⟩ := h2
  obtain rfl : alg = alg' := Option.some.inj (a1.symm.trans b1)
  obtain rfl := hkey alg spk spk' key key' a6 b6 a3 b3
  obtain rfl : hdr = hd := Option.some.inj (hp.symm.trans a8)
  obtain rfl : hdr = hd' := Option.some.inj (hp.symm.trans b8)
  obtain rfl : c = c' := Option.some.inj (a9.symm.trans b9)
  obtain rfl : tt = tt' := Option.some.inj (a10.symm.trans b10)
  obtain rfl : tag = tag' := Option.some.inj (a11.symm.trans b11)
  obtain rfl : iv = iv' := Option.some.inj (a12.symm.trans b12)
  rw [headerB64_fixed hf ((o'.sub 0).sub 0) ((o.sub 0).sub 0)] at b15
  rcases a15 with ⟨ha, h1⟩ | ⟨ha, h1⟩ <;> rcases b15 with ⟨hb, h2⟩ | ⟨hb, h2⟩
  · exact Option.some.inj (h1.symm.trans h2)
  · rw [ha] at hb; exact absurd hb (by decide)
  · rw [ha] at hb; exact absurd hb (by decide)
  · exact Option.some.inj (h1.symm.trans h2)

/-- C116: a signed text accepted by two receivers, one with the signer's key and one without any. -/
example : ∃ t m, ¬KindOf (toy fun _ => none) t .jwe ∧
    Message.receive (toy fun _ => none) HOrd.rev t none none none = .ok m ∧
    Message.receive (toy fun _ => none) HOrd.rev t (some (exampleKey 1)) none (some (exampleKey 5)) = .ok m := by
  have hw := richMessage_wf (toy fun _ => none).f64
  obtain ⟨t, h1, h2⟩ := C24_sign_receive _ .es256 _ _ (toy_signPair (fun _ => none) _ (exampleKey 5))
    { richMessage.setKid (hexEncode (exampleKey 5)) with flatJws := true }
    ⟨hw.jwm, hw.other, hw.to, hw.recipients, hw.canon, hw.nums, hw.depth⟩
    ⟨(by intro k h; cases h), (by intro k h; cases h)⟩ HOrd.id HOrd.rev
  refine ⟨t, _, ?_, h2 none none none (.inr ⟨rfl, rfl⟩), h2 _ none (some (exampleKey 5)) (.inl rfl)⟩
  rintro hk
  obtain ⟨es, hs, -⟩ := id hk
  have hj : Message.messageType (toy fun _ => none) t = .ok .jws := by
    obtain ⟨-, sig, -, rfl⟩ := sign_ok h1
    exact (jwsOf_class _ _ _ _).1
  cases Res.ok.inj (((kind_iff hs).2 hk).symm.trans hj)

/-- C116: an envelope accepted by two receivers. -/
example : ∃ t m, Message.receive (toy fun _ => none) HOrd.rev t (some (exampleKey 2))
      (some ((toy fun _ => none).x25519Pub (exampleKey 3))) none = .ok m ∧
    Message.receive (toy fun _ => none) HOrd.id t (some (exampleKey 1))
      (some ((toy fun _ => none).x25519Pub (exampleKey 3))) none = .ok m :=
  have ⟨t, _, _, h1, h2⟩ := exampleBoth
  ⟨t, _, h2, h1⟩

end Verif
