/-
The readers of secret keys that take a mutable buffer and overwrite it with zeros
(/repo/keypair/src/ed25519.rs:48-57, 166-171; /repo/keypair/src/secp256k1.rs:109-134; /repo/keypair/src/rsa.rs:45-49;
/repo/keypair/src/key_pair.rs:140-156).

The buffer is the state of the method.  `zeroize` on a slice writes zeros and keeps the length.  The temporary copies the readers make are not
modelled.
-/
import Verif.Model.Der

namespace TG

/-- `<[u8]>::zeroize` (ed25519.rs:53 and 169; secp256k1.rs:113 and 126; rsa.rs:47). -/
def zeroize {ε : Type} : M Bytes ε Unit := fun buf => (.ok (), buf.map (fun _ => 0))

/-- Read the buffer (`&*kp`, ed25519.rs:49). -/
def contents {ε : Type} : M Bytes ε Bytes := fun buf => (.ok buf, buf)

namespace Der

/-- `DerObject::deserialize` applied until no bytes are left (`Vec<DerObject>::from_der_object`, used in secp256k1.rs:124-125); at most `fuel` objects. -/
def parseObjects : Nat → Bytes → Option (List (UInt8 × Bytes))
  | _, [] => some []
  | 0, _ :: _ => none
  | fuel + 1, bs@(_ :: _) =>
    match parseTlv bs with
    | none => none
    | some (t, c, rest) =>
      match parseObjects fuel rest with
      | none => none
      | some os => some ((t, c) :: os)

/-- `<Vec<DerObject> as FromDerObject>::deserialize` (used in secp256k1.rs:124-125): a SEQUENCE of objects; bytes after it are ignored. -/
def parseSequence (bs : Bytes) : Option (List (UInt8 × Bytes)) :=
  match parseTlv bs with
  | some (t, c, _) => if t = 0x30 then parseObjects c.length c else none
  | none => none

/-- `<Vec<u8> as FromDerObject>::from_der_object` (used in secp256k1.rs:128-129): an OCTET STRING. -/
def octetString : UInt8 × Bytes → Option Bytes
  | (t, c) => if t = 0x04 then some c else none

end Der

namespace SecretBytes
variable [Env]

/-- `ed25519::Keypair::decode` (ed25519.rs:48-57). -/
def edKeypair : M Bytes DecodingError KeyPair := do
  let kp ← contents
  let k ← M.lift (KeyPair.edDecode kp)
  zeroize
  return k

/-- `ed25519::SecretKey::from_bytes` (ed25519.rs:166-171), promoted to a key pair (ed25519.rs:99-104). -/
def edSecret : M Bytes DecodingError KeyPair := do
  let sk ← contents
  let k ← M.lift (KeyPair.fromSecretKey sk .ed25519)
  zeroize
  return k

/-- `secp256k1::SecretKey::from_bytes` (secp256k1.rs:109-115), promoted to a key pair (secp256k1.rs:67-72). -/
def secpSecret : M Bytes DecodingError KeyPair := do
  let sk ← contents
  let k ← M.lift (KeyPair.secpFromBytes sk)
  zeroize
  return k

/-- `rsa::Keypair::from_pkcs8` (rsa.rs:45-49) and `KeyPair::rsa_from_pkcs8` (key_pair.rs:145-147); `parse` is `ring`'s `RsaKeyPair::from_pkcs8`. -/
def rsaPkcs8 (parse : Bytes → Option Bytes) (h : Env.wasm = false) : M Bytes DecodingError KeyPair := do
  let der ← contents
  let kp ← M.lift (match parse der with | some k => .ok k | none => .err .rsa)
  zeroize
  return .rsa kp h

/-- `secp256k1::SecretKey::from_der` (secp256k1.rs:121-134) and `KeyPair::secp256k1_from_der` (key_pair.rs:153-156). -/
def secpDer : M Bytes DecodingError KeyPair := do
  let der ← contents
  let obj ← M.lift (match Der.parseSequence der with | some os => .ok os | none => .err .secp256k1)
  zeroize
  let skObj ← M.lift (match obj[1]? with | some o => .ok o | none => .err .secp256k1)
  let sk ← M.lift (match Der.octetString skObj with | some b => .ok b | none => .err .secp256k1)
  M.lift (KeyPair.secpFromBytes sk)

end SecretBytes

end TG
