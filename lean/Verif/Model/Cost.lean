import Verif.Model.Secure

/-!
# How many signatures are checked and how many entries are tried

The functions of `Verif.Model.Secure` that check signatures and open entries, with a counter: of the calls of the
validator (`src/messages/message_raw_crypto.rs:193`) and of `decrypt_cek` (`src/messages/helpers/receive.rs:100`).
`Verif.Props.Cost` shows that the results are the same.
-/

namespace Verif.Message

/-- Whether the pass of the loop of `verify` gets to the validator, `src/messages/message_raw_crypto.rs:184-193`. -/
def reaches (s : Signature) : Nat :=
  match s.getAlg, s.protected_ with
  | some alg, some _ =>
    match SignAlg.ofStr alg with
    | .ok _ => 1
    | _ => 0
  | _, _ => 0

/-- The loop of `verify`, `src/messages/message_raw_crypto.rs:183-201`. -/
def verifyLoopC (P : Prims) (payload : Str) (key : Bytes) : HOrd → List Signature → Nat × Res Bool
  | _, [] => (0, .ok false)
  | o, s :: l =>
    match verifyOne P (o.sub 0) payload key s with
    | .ok true => (reaches s, .ok true)
    | .ok false =>
      let r := verifyLoopC P payload key (o.sub 1) l
      (reaches s + r.1, r.2)
    | .err e => (reaches s, .err e)
    | .panic => (reaches s, .panic)

/-- `verify`, `src/messages/message_raw_crypto.rs:169-210`. -/
def verifyC (P : Prims) (o : HOrd) (bytes key : Bytes) : Nat × Res Message :=
  match Jws.ofBytes P.f64 bytes with
  | none => (0, .err .serde)
  | some jws =>
    match signaturesOf jws with
    | .ok sigs =>
      let r := verifyLoopC P jws.payload key o sigs
      (r.1, do
        let ok ← r.2
        if ok then do
          let b ← Res.ofOpt .base64 (b64Decode jws.payload)
          Res.ofOpt .serde (ofBytes P.f64 b)
        else .err .jwsParseError)
    | .err e => (0, .err e)
    | .panic => (0, .panic)

/-- The loop of `receive_jws`, `src/messages/helpers/receive.rs:161-173`. -/
def verifyEachC (P : Prims) (incoming : Bytes) (key : Option Bytes) : HOrd → List Signature → Nat × Res (Option Message)
  | _, [] => (0, .ok none)
  | o, s :: l =>
    match s.getAlg with
    | none => verifyEachC P incoming key (o.sub 1) l
    | some _ =>
      match signingKey key s.getKid with
      | .ok k =>
        let v := verifyC P (o.sub 0) incoming k
        match v.2 with
        | .ok m => (v.1, .ok (some m))
        | .err _ =>
          let r := verifyEachC P incoming key (o.sub 1) l
          (v.1 + r.1, r.2)
        | .panic => (v.1, .panic)
      | .err e => (0, .err e)
      | .panic => (0, .panic)

/-- The verified message of `receive_jws`, `src/messages/helpers/receive.rs:136-178`. -/
def verifiedOfC (P : Prims) (o : HOrd) (incoming : Str) (key : Option Bytes) : Nat × Res (Option Message) :=
  match Message.ofText P.f64 incoming with
  | some m =>
    if m.jwm.alg.isNone then (0, .err .jweParseError)
    else
      match m.getBody >>= fun body => signingKey key m.jwm.kid >>= fun k => pure (body, k) with
      | .ok (body, k) =>
        let v := verifyC P o (utf8 body) k
        (v.1, v.2 >>= fun x => pure (some x))
      | .err e => (0, .err e)
      | .panic => (0, .panic)
  | none =>
    match Jws.ofText P.f64 incoming with
    | some jws =>
      match signaturesOf jws with
      | .ok sigs => verifyEachC P (utf8 incoming) key o sigs
      | .err e => (0, .err e)
      | .panic => (0, .panic)
    | none => (0, .err .jwsParseError)

/-- `receive`, `src/messages/message.rs:410-434`, with the number of signatures that are checked. -/
def receiveC (P : Prims) (o : HOrd) (incoming : Str) (sk encKey sigKey : Option Bytes) : Nat × Res Message :=
  match decryptStep P (o.sub 0) incoming sk encKey >>= fun cur => messageType P cur >>= fun t => pure (cur, t) with
  | .ok (cur, t) =>
    if t = .jws then
      let v := verifiedOfC P ((o.sub 1).sub 0) cur sigKey
      (v.1, do
        let verified ← v.2
        let m ← Res.ofOpt .jwsParseError verified
        Res.ofOpt .serde (Message.ofText P.f64 (m.text ((o.sub 1).sub 1))))
    else (0, Res.ofOpt .serde (Message.ofText P.f64 cur))
  | .err e => (0, .err e)
  | .panic => (0, .panic)

/-- The loop of `receive_jwe`, `src/messages/helpers/receive.rs:99-112`, with the number of entries that are tried. -/
def firstKeyC (P : Prims) (jwe : Jwe) (sk : Bytes) (key : Option Bytes) : List Recipient → Nat × Res Bytes
  | [] => (0, .err (.generic "could not decrypt cek"))
  | r :: l =>
    match decryptCek P jwe sk r key with
    | .ok k => (1, .ok k)
    | .err _ =>
      let x := firstKeyC P jwe sk key l
      (1 + x.1, x.2)
    | .panic => (1, .panic)

end Verif.Message
