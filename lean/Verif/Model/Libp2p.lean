/-
Conversions between key pairs and libp2p key pairs (/repo/keypair/src/key_pair.rs:246-311).

`libp2p_identity::Keypair` (0.2, features rsa, ed25519, secp256k1) holds the same secrets, from the same libraries: an Ed25519 seed, a Secp256k1 secret key,
and outside wasm32 an RSA pair.  ECDSA is not enabled, so `unreachable!()` on line 273 has no argument that reaches it.
-/
import Verif.Model.PeerId

namespace TG
variable [Env]

/-- `libp2p_identity::Keypair` (key_pair.rs:251-311). -/
inductive Libp2pKeypair where
  | ed25519 (seed : Bytes) (hl : seed.length = 32)
  | rsa (kp : Bytes) (h : Env.wasm = false)
  | secp256k1 (sk : Bytes) (hl : sk.length = 32) (hv : Env.secpValidSk sk = true)
  deriving DecidableEq

namespace Libp2pKeypair

/-- `Keypair::public` of libp2p (the counterpart of key_pair.rs:185-193), as key type number and raw key (`PublicKey.toLibp2p` has the numbers). -/
def pub : Libp2pKeypair → Nat × Bytes
  | .ed25519 seed _ => (1, Env.edPublic seed)
  | .rsa kp _ => (0, Der.encodeX509 (Env.rsaPublic kp))
  | .secp256k1 sk _ _ => (2, Env.secpPublic sk)

/-- `PeerId::from_public_key(&keypair.public())` (the counterpart of key_pair.rs:246-248): inlined if the protobuf has at most 42 bytes. -/
def peerId (k : Libp2pKeypair) : PeerId :=
  let enc := pbEncode k.pub.1 k.pub.2
  if enc.length ≤ 42 then ⟨true, enc⟩ else ⟨false, Env.sha256 enc⟩

/-- `libp2p_identity::ed25519::Keypair::to_bytes` (used in key_pair.rs:251-279): seed and public point. -/
def edBytes (seed : Bytes) : Bytes := seed ++ Env.edPublic seed

end Libp2pKeypair

/-- `Result::expect` (key_pair.rs:251-311). -/
def Outcome.expect {ε α : Type} : Outcome ε α → Outcome Empty α
  | .ok a => .ok a
  | .err _ => .panic
  | .panic => .panic
  | .diverge => .diverge

namespace KeyPair

/-- `KeyPair::get_peer_id` (key_pair.rs:246-248). -/
def getPeerId (kp : KeyPair) : PeerId := kp.pub.toPeerId

/-- `From<libp2p_identity::Keypair> for KeyPair` (key_pair.rs:251-279); the RSA pair is transmuted. -/
def ofLibp2p : Libp2pKeypair → Outcome Empty KeyPair
  | .ed25519 seed _ => (edDecode (Libp2pKeypair.edBytes seed)).expect
  | .rsa kp h => .ok (.rsa kp h)
  | .secp256k1 sk _ _ => (secpFromBytes sk).expect

/-- `From<KeyPair> for libp2p_identity::Keypair` (key_pair.rs:281-311); `ed25519_from_bytes` takes the 32 bytes of the secret key, `SecretKey::try_from_bytes` checks
a Secp256k1 secret as this crate does; the RSA pair is transmuted. -/
def toLibp2p : KeyPair → Outcome Empty Libp2pKeypair
  | .ed25519 sk _ => if hl : sk.length = 32 then .ok (.ed25519 sk hl) else .panic
  | .rsa kp h => .ok (.rsa kp h)
  | .secp256k1 sk _ _ =>
    if hl : sk.length = 32 then
      if hv : Env.secpValidSk sk = true then .ok (.secp256k1 sk hl hv) else .panic
    else .panic

end KeyPair

end TG
