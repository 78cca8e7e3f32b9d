import Verif.Model.Algo.Prims

/-!
# Published test vectors

The algorithms of `Verif.Model.Algo` on the inputs that the standards give with their results.  These are tests of the
model, not theorems about it; the other vectors are beside the properties that use them (`Verif.Props.Algo`,
`Verif.Props.Ecdsa`, `Verif.Props.EdDsa`).
-/

namespace Verif.Algo

/-- SHA-256 of one and of two blocks (FIPS 180-2, appendices B.1 and B.2). -/
example : sha256 (utf8 c!"abc") = beBytes 32 0xba7816bf8f01cfea414140de5dae2223b00361a396177a9cb410ff61f20015ad ∧
    sha256 (utf8 c!"abcdbcdecdefdefgefghfghighijhijkijkljklmklmnlmnomnopnopq") =
      beBytes 32 0x248d6a61d20638b8e5c026930c3e6039a33ce45964ff2167f6ecedd419db06c1 := by
  decide +kernel

/-- SHA-512 of one and of two blocks (FIPS 180-2, appendices C.1 and C.2). -/
example : sha512 (utf8 c!"abc") = beBytes 64
      0xddaf35a193617abacc417349ae20413112e6fa4e89a97ea20a9eeee64b55d39a2192992a274fc1a836ba3c23a3feebbd454d4423643ce80e2a9ac94fa54ca49f ∧
    sha512 (utf8 c!"abcdefghbcdefghicdefghijdefghijkefghijklfghijklmghijklmnhijklmnoijklmnopjklmnopqklmnopqrlmnopqrsmnopqrstnopqrstu") =
      beBytes 64
      0x8e959b75dae313da8cf4f72814fc143f8f7779c6eb9f7fa17299aeadb6889018501d289e4900f7e4331b99dec4b5433ac7d329eeb6dd26545e96e55b874be909 := by
  decide +kernel

/-- AES-256 (FIPS 197, appendix C.3). -/
example : aes256 ((List.range 32).map UInt8.ofNat) (beBytes 16 0x00112233445566778899aabbccddeeff) =
    beBytes 16 0x8ea2b7ca516745bfeafc49904b496089 := by
  decide +kernel

/-- The table of AES is the one of FIPS 197, section 5.1.1: the inverse in the field of 256 elements, then an affine map.
The inverse is the power 254. -/
example : ∀ b : UInt8, subByte b =
    (let mul := fun a b : UInt8 => ((List.range 8).foldl (fun (p : UInt8 × UInt8) i =>
        (if b.toNat >>> i % 2 = 1 then p.1 ^^^ p.2 else p.1, xtime p.2)) (0, a)).1
     let sq := fun a => mul a a
     let inv := fun a => let a2 := sq a; let a4 := sq a2; let a8 := sq a4; let a16 := sq a8; let a32 := sq a16
        let a64 := sq a32; mul (mul (mul (mul (mul (mul a2 a4) a8) a16) a32) a64) (sq a64)
     let rot := fun (a : UInt8) (i : UInt8) => (a <<< i) ||| (a >>> (8 - i))
     let c := inv b
     c ^^^ rot c 1 ^^^ rot c 2 ^^^ rot c 3 ^^^ rot c 4 ^^^ 0x63) := by
  intro b
  have h : ∀ n : Fin 256, subByte (UInt8.ofNat n.val) =
      (let mul := fun a b : UInt8 => ((List.range 8).foldl (fun (p : UInt8 × UInt8) i =>
          (if b.toNat >>> i % 2 = 1 then p.1 ^^^ p.2 else p.1, xtime p.2)) (0, a)).1
       let sq := fun a => mul a a
       let inv := fun a => let a2 := sq a; let a4 := sq a2; let a8 := sq a4; let a16 := sq a8; let a32 := sq a16
          let a64 := sq a32; mul (mul (mul (mul (mul (mul a2 a4) a8) a16) a32) a64) (sq a64)
       let rot := fun (a : UInt8) (i : UInt8) => (a <<< i) ||| (a >>> (8 - i))
       let c := inv (UInt8.ofNat n.val)
       c ^^^ rot c 1 ^^^ rot c 2 ^^^ rot c 3 ^^^ rot c 4 ^^^ 0x63) := by decide +kernel
  have := h ⟨b.toNat, b.toNat_lt⟩
  simpa using this

/-- AES-256-GCM (the specification of McGrew and Viega, test case 16). -/
example : gcmSeal (beBytes 32 0xfeffe9928665731c6d6a8f9467308308feffe9928665731c6d6a8f9467308308)
      (beBytes 12 0xcafebabefacedbaddecaf888) (beBytes 20 0xfeedfacedeadbeeffeedfacedeadbeefabaddad2)
      (beBytes 60 0xd9313225f88406e5a55909c5aff5269a86a7a9531534f7da2e4c303d8a318a721c3c0c95956809532fcf0e2449a6b525b16aedf5aa0de657ba637b39) =
    some (beBytes 60 0x522dc1f099567d07f47f37a32a84427d643a8cdcbfe5c0c97598a2bd2555d1aa8cb08e48590dbb3da7b08b1056828838c5f61e6393ba7a0abcc9f662 ++
      beBytes 16 0x76fc6ece0f4e1768cddf8853bb2d551b) := by
  decide +kernel

/-- AES-256-CBC (SP 800-38A, appendix F.2.5): the first four blocks, before that of the padding. -/
example : (cbcSeal (beBytes 32 0x603deb1015ca71be2b73aef0857d77811f352c073b6108d72d9810a30914dff4)
      (beBytes 16 0x000102030405060708090a0b0c0d0e0f)
      (beBytes 64 0x6bc1bee22e409f96e93d7e117393172aae2d8a571e03ac9c9eb76fac45af8e5130c81c46a35ce411e5fbc1191a0a52eff69f2445df4f9b17ad2b417be66c3710)).take 64 =
    beBytes 64 0xf58c4c04d6e5f1ba779eabfb5f7bfbd69cfc4e967edb808d679f777bc6702c7d39f23369a9d9bacfa530e26304231461b2eb05e2c39be9fcda6c19078c6a9d1b := by
  decide +kernel

/-- The block function of ChaCha20 (RFC 8439, section 2.3.2). -/
example : chaBlock ((List.range 32).map UInt8.ofNat) 1 (beBytes 12 0x000000090000004a00000000) = beBytes 64
    0x10f1e7e4d13b5915500fdd1fa32071c4c7d1f4c733c068030422aa9ac3d46c4ed2826446079faa0914c2d705d98b02a2b5129cd1de164eb9cbd083e8a2503c4e := by
  decide +kernel

/-- Poly1305 (RFC 8439, section 2.5.2). -/
example : poly1305 (beBytes 32 0x85d6be7857556d337f4452fe42d506a80103808afb0db2fd4abff6af4149f51b)
    (utf8 c!"Cryptographic Forum Research Group") = beBytes 16 0xa8061dc1305136c6c22b8baf0c0127a9 := by
  decide +kernel

/-- HChaCha20 (draft-irtf-cfrg-xchacha-03, section 2.2.1). -/
example : hchacha20 ((List.range 32).map UInt8.ofNat) (beBytes 16 0x000000090000004a0000000031415927) =
    beBytes 32 0x82413b4227b27bfed30e42508a877d73a0f9e4d58a74a853c12ec41326d3ecdc := by
  decide +kernel

/-- X25519 (RFC 7748, section 5.2, both vectors). -/
example : x25519 (beBytes 32 0xa546e36bf0527c9d3b16154b82465edd62144c0ac1fc5a18506a2244ba449ac4)
      (beBytes 32 0xe6db6867583030db3594c1a424b15f7c726624ec26b3353b10a903a6d0ab1c4c) =
      beBytes 32 0xc3da55379de9c6908e94ea4df28d084f32eccf03491c71f754b4075577a28552 ∧
    x25519 (beBytes 32 0x4b66e9d4d1b4673c5ad22691957d6af5c11b6421e0ea01d42ca4169e7918ba0d)
      (beBytes 32 0xe5210f12786811d3f4b7959d0538ae2c31dbe7106fc03c3efc4cd549c715a493) =
      beBytes 32 0x95cbde9476e8907d7aade45cb4b873f88b595a68799fa152e6f8f7647aac7957 := by
  decide +kernel

/-- ECDSA on secp256k1 with the secret one, the message "Satoshi Nakamoto" and the nonce of RFC 6979 (a vector shared by
several implementations). -/
example : k256.sign true (fun _ _ => 0x8F8A276C19F4149656B280621E358CCE24F5F52542772691EE69063B74F15D15 - 1) (beBytes 32 1)
      (utf8 c!"Satoshi Nakamoto") =
    some (beBytes 32 0x934b1ea10a4b3c1757e2b0c017d0b6143ce3c9a7e6a4a49860d7a6ab210ee3d8 ++
      beBytes 32 0x2442ce9d2b916064108014783e923ec36b49743e2ffa1c4496f01a512aafd9e5) := by
  decide +kernel

end Verif.Algo
