import Verif.Lemma.Algo.Accuracy
import Verif.Lemma.Algo.Again
import Verif.Lemma.Algo.Base58
import Verif.Lemma.Algo.Cbc
import Verif.Lemma.Algo.CurveCount
import Verif.Lemma.Algo.Curves
import Verif.Lemma.Algo.DidKey
import Verif.Lemma.Algo.Ecdsa
import Verif.Lemma.Algo.EcdsaBytes
import Verif.Lemma.Algo.EcdsaKeys
import Verif.Lemma.Algo.EcdsaNonce
import Verif.Lemma.Algo.EcdsaOwn
import Verif.Lemma.Algo.EcdsaTotal
import Verif.Lemma.Algo.Ed25519
import Verif.Lemma.Algo.EdCount
import Verif.Lemma.Algo.EdKeys
import Verif.Lemma.Algo.EdSign
import Verif.Lemma.Algo.Edwards
import Verif.Lemma.Algo.Extreme
import Verif.Lemma.Algo.Float
import Verif.Lemma.Algo.GcmKeys
import Verif.Lemma.Algo.Ghash
import Verif.Lemma.Algo.Monotone
import Verif.Lemma.Algo.Montgomery
import Verif.Lemma.Algo.Number
import Verif.Lemma.Algo.Poly1305
import Verif.Lemma.Algo.PolyKeys
import Verif.Lemma.Algo.Prime
import Verif.Lemma.Algo.PrimeCurves
import Verif.Lemma.Algo.PrimeOrder
import Verif.Lemma.Algo.PrimeTwist
import Verif.Lemma.Algo.Readings
import Verif.Lemma.Algo.Settle
import Verif.Lemma.Algo.Symmetric
import Verif.Lemma.Algo.Tags
import Verif.Lemma.Algo.Tiny
import Verif.Lemma.Algo.Twist
import Verif.Lemma.Algo.TwistCount
import Verif.Lemma.Algo.TwistOrder
import Verif.Lemma.Algo.Weierstrass
import Verif.Lemma.Algo.X25519
import Verif.Lemma.Algo.X25519Order
import Verif.Lemma.Algo.X25519Weak
import Verif.Lemma.Base64
import Verif.Lemma.Base64Spec
import Verif.Lemma.Borrow
import Verif.Lemma.Decode
import Verif.Lemma.Denotes
import Verif.Lemma.Envelope
import Verif.Lemma.HMap
import Verif.Lemma.Headers
import Verif.Lemma.Hex
import Verif.Lemma.Json
import Verif.Lemma.JsonNum
import Verif.Lemma.JsonStr
import Verif.Lemma.Lookup
import Verif.Lemma.Message
import Verif.Lemma.Nice
import Verif.Lemma.Order
import Verif.Lemma.Regex
import Verif.Lemma.Resolver
import Verif.Lemma.Same
import Verif.Lemma.Seal
import Verif.Lemma.Serde
import Verif.Lemma.Sign
import Verif.Lemma.Utf8
import Verif.Lemma.Value
import Verif.Model.Algo.Aes
import Verif.Model.Algo.ChaChaPoly
import Verif.Model.Algo.DidKey
import Verif.Model.Algo.Ecdsa
import Verif.Model.Algo.Ed25519
import Verif.Model.Algo.Float
import Verif.Model.Algo.Prims
import Verif.Model.Algo.Rfc6979
import Verif.Model.Algo.Sha256
import Verif.Model.Algo.Sha512
import Verif.Model.Algo.X25519
import Verif.Model.Attachment
import Verif.Model.Base64
import Verif.Model.Basic
import Verif.Model.ChaCha
import Verif.Model.Cost
import Verif.Model.Crypto
import Verif.Model.Encryption
import Verif.Model.Envelope
import Verif.Model.HMap
import Verif.Model.Headers
import Verif.Model.Hex
import Verif.Model.Json
import Verif.Model.Map
import Verif.Model.Message
import Verif.Model.MessageSerde
import Verif.Model.Offline
import Verif.Model.RawReceive
import Verif.Model.RawValue
import Verif.Model.Regex
import Verif.Model.Resolver
import Verif.Model.Secure
import Verif.Model.Serde
import Verif.Model.Utf8
import Verif.Model.Value
import Verif.Props.Accept
import Verif.Props.Accuracy
import Verif.Props.Again
import Verif.Props.Agree
import Verif.Props.Algo
import Verif.Props.Api
import Verif.Props.Attach
import Verif.Props.Attack
import Verif.Props.Auth
import Verif.Props.Cbc
import Verif.Props.Claims
import Verif.Props.Classify
import Verif.Props.Codec
import Verif.Props.Compare
import Verif.Props.Contents
import Verif.Props.Cost
import Verif.Props.CrateTests
import Verif.Props.Deep
import Verif.Props.DidKey
import Verif.Props.Ecdsa
import Verif.Props.EcdsaNonce
import Verif.Props.EcdsaOwn
import Verif.Props.EcdsaOwner
import Verif.Props.EdDsa
import Verif.Props.EdNonce
import Verif.Props.EdOwn
import Verif.Props.EdOwner
import Verif.Props.EdWeak
import Verif.Props.Entries
import Verif.Props.Errors
import Verif.Props.Exact
import Verif.Props.External
import Verif.Props.Extreme
import Verif.Props.Flow
import Verif.Props.Forms
import Verif.Props.Hash
import Verif.Props.Interop
import Verif.Props.Keys
import Verif.Props.Labels
import Verif.Props.Length
import Verif.Props.Local
import Verif.Props.Names
import Verif.Props.Nested
import Verif.Props.Number
import Verif.Props.Observer
import Verif.Props.Offline
import Verif.Props.OneMessage
import Verif.Props.OneReading
import Verif.Props.Onion
import Verif.Props.Open
import Verif.Props.Order
import Verif.Props.Outage
import Verif.Props.Outcome
import Verif.Props.Panics
import Verif.Props.PassOn
import Verif.Props.Plain
import Verif.Props.Plug
import Verif.Props.Raw
import Verif.Props.RawAccept
import Verif.Props.RawReceive
import Verif.Props.RawValue
import Verif.Props.Reflect
import Verif.Props.Repudiate
import Verif.Props.Resolver
import Verif.Props.Robust
import Verif.Props.Route
import Verif.Props.Same
import Verif.Props.SameIv
import Verif.Props.Schema
import Verif.Props.Seal
import Verif.Props.Settle
import Verif.Props.Settled
import Verif.Props.Sign
import Verif.Props.SignErrors
import Verif.Props.Signed
import Verif.Props.Talk
import Verif.Props.Tamper
import Verif.Props.Text
import Verif.Props.TwoKeys
import Verif.Props.Unsteady
import Verif.Props.Uri
import Verif.Props.Vectors
import Verif.Props.Verify
import Verif.Props.Weak
import Verif.Props.Whole
import Verif.Props.Wrong
import Verif.Spec.Agree
import Verif.Spec.Attach
import Verif.Spec.Base64
import Verif.Spec.Cbc
import Verif.Spec.Compare
import Verif.Spec.Contents
import Verif.Spec.DidKey
import Verif.Spec.EcKey
import Verif.Spec.EdKey
import Verif.Spec.EdWeak
import Verif.Spec.Extreme
import Verif.Spec.Forge
import Verif.Spec.Hash
import Verif.Spec.HashKey
import Verif.Spec.Hex
import Verif.Spec.JsonText
import Verif.Spec.Labels
import Verif.Spec.Names
import Verif.Spec.Near
import Verif.Spec.Nonce
import Verif.Spec.Number
import Verif.Spec.Outage
import Verif.Spec.Prims
import Verif.Spec.Regex
import Verif.Spec.Same
import Verif.Spec.Schema
import Verif.Spec.Setters
import Verif.Spec.Signatures
import Verif.Spec.Value
import Verif.Spec.Weak
