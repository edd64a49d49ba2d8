/-
Model of the texts of errors, `Display` derived by `thiserror` from the `#[error(...)]` attributes in /repo/keypair/src/error.rs, /repo/trust-graph/src/{trust,
certificate,revoke,trust_graph}.rs and /repo/service/src/{dto,error}.rs.  The model's errors do not keep the texts inside them, so this is a relation: `e.Says s` if `s`
is the text of an error of the form `e`, whatever the texts inside are.
-/
import Verif.Model.Service

namespace TG

/-- The end of the text of `InvalidKeyFormat` (keypair/src/error.rs:27). -/
def keyFormatEnd : Str := " Key format is not supported".toList

/-- A text made by a library: `Display` of an error of `ed25519_dalek`, `libsecp256k1`, `ring`, `bs58` or SQLite (keypair/src/error.rs:79-89, trust_graph.rs:57-58).
Assumed of these libraries: it does not end with "Key format is not supported". -/
def LibraryText (x : Str) : Prop := ¬ keyFormatEnd <:+ ' ' :: x

/-- The text of a number (certificate.rs:64-67): `Display for usize`. -/
def showIndex (i : Nat) : Str := showU64 (UInt64.ofNat i)

/-- `Display for error::Error` (keypair/src/error.rs:26-29).  The text in front is the `sig_type` that the caller has sent (dto.rs:84, 142). -/
inductive KeyError.Says : KeyError → Str → Prop
  | invalidKeyFormat (x : Str) : Says .invalidKeyFormat (x ++ keyFormatEnd)

/-- `Display for DecodingError` (keypair/src/error.rs:33-56). -/
inductive DecodingError.Says : DecodingError → Str → Prop
  | invalidLength (x : Str) : Says .invalidLength ("Failed to decode, invalid length: ".toList ++ x)
  | ed25519 (x : Str) : Says .ed25519 ("Failed to decode with ed25519: ".toList ++ x)
  | rsa : Says .rsa "Failed to decode with RSA".toList
  | secp256k1 : Says .secp256k1 "Failed to decode with secp256k1".toList
  | keypairDecodingIsNotSupported : Says .keypairDecodingIsNotSupported "RSA keypair decoding is not supported yet".toList
  | invalidTypeByte : Says .invalidTypeByte "Invalid type prefix".toList
  | base58DecodeError (x : Str) : Says .base58DecodeError ("Cannot decode public key from base58 :".toList ++ x)
  | rawSignatureUnsupportedType (x : Str) :
    Says .rawSignatureUnsupportedType ("Raw signature decoding failed: type ".toList ++ x ++ " not supported".toList)
  | publicKeyNotInlined (x : Str) : Says .publicKeyNotInlined ("public key is not inlined in peer id: ".toList ++ x)

/-- `Display for VerificationError` (keypair/src/error.rs:79-89). -/
inductive VerificationError.Says : VerificationError → Str → Prop
  | ed25519 (sig key e : Str) (h : LibraryText e) :
    Says .ed25519 ("Failed to verify signature ".toList ++ sig ++ " with ".toList ++ key ++ " ed25519 public key: ".toList ++ e)
  | rsa (sig key e : Str) (h : LibraryText e) :
    Says .rsa ("Failed to verify signature ".toList ++ sig ++ " with ".toList ++ key ++ " RSA public key: ".toList ++ e)
  | secp256k1 (sig key e : Str) (h : LibraryText e) :
    Says .secp256k1 ("Failed to verify signature ".toList ++ sig ++ " with ".toList ++ key ++ " secp256k1 public key: ".toList ++ e)

/-- `Display for TrustError` (trust.rs:60-93). -/
inductive TrustError.Says : TrustError → Str → Prop
  | expired (expiresAt now : Str) :
    Says .expired ("Trust is expired at: '".toList ++ expiresAt ++ "', current time: '".toList ++ now ++ "'".toList)
  | signatureError {e : VerificationError} {s : Str} (h : e.Says s) : Says (.signatureError e) s
  | decodePublicKeyError {e : DecodingError} {s : Str} (x : Str) (h : e.Says s) :
    Says (.decodePublicKeyError e) ("Cannot decode the public key: ".toList ++ x ++ " in the trust: ".toList ++ s)
  | parseError (field x e : Str) :
    Says .parseError ("Cannot parse `".toList ++ field ++ "` field in the trust '".toList ++ x ++ "': ".toList ++ e)
  | base58DecodeError (field x e : Str) :
    Says .base58DecodeError ("Cannot decode `".toList ++ field ++ "` from base58 format in the trust '".toList ++ x ++ "': ".toList ++ e)
  | publicKeyError {e : DecodingError} {s : Str} (h : e.Says s) : Says (.publicKeyError e) s
  | decodeErrorInvalidSize (field : Str) :
    Says .decodeErrorInvalidSize ("Cannot decode `".toList ++ field ++ "` field in the trust: invalid size".toList)

/-- `Display for RevokeError` (revoke.rs:26-34). -/
inductive RevokeError.Says : RevokeError → Str → Prop
  | incorrectSignature {e : VerificationError} {s : Str} (h : e.Says s) : Says (.incorrectSignature e) ("Signature is incorrect: ".toList ++ s)

/-- `Display for CertificateError` (certificate.rs:43-70).  `expires_at` is the `Debug` form of a `Duration` (certificate.rs:99, 163), so it ends with `s`. -/
inductive CertificateError.Says : CertificateError → Str → Prop
  | incorrectCertificateFormat (x : Str) : Says .incorrectCertificateFormat ("Incorrect format of the certificate: ".toList ++ x)
  | incorrectByteLength : Says .incorrectByteLength
    "Incorrect length of an array. Should be 2 bytes of a format, 4 bytes of a version and 104 bytes for each trust".toList
  | decodeError {e : TrustError} {s : Str} (h : e.Says s) : Says (.decodeError e) ("Error while decoding a trust in a certificate: ".toList ++ s)
  | expirationError (issuedAt expiresAt : Str) :
    Says .expirationError ("Certificate is expired. Issued at ".toList ++ issuedAt ++ " and expired at ".toList ++ expiresAt ++ "s".toList)
  | noTrustedRoot : Says .noTrustedRoot "Certificate does not contain a trusted root.".toList
  | malformedRoot {e : TrustError} {s : Str} (h : e.Says s) : Says (.malformedRoot e) ("Root trust did not pass verification: ".toList ++ s)
  | keyInCertificateError : Says .keyInCertificateError "There is no `issued_by` public key in a certificate".toList
  | certificateLengthError : Says .certificateLengthError "The certificate must have at least 1 trust".toList
  | decodeTrustError {i : Nat} {e : TrustError} {s : Str} (h : e.Says s) :
    Says (.decodeTrustError i e) ("Cannot convert trust number ".toList ++ showIndex i ++ " from string: ".toList ++ s)
  | verificationError {i : Nat} {e : TrustError} {s : Str} (h : e.Says s) :
    Says (.verificationError i e) ("Trust ".toList ++ showIndex i ++ " in chain did not pass verification: ".toList ++ s)
  | unexpected : Says .unexpected "there cannot be paths without any nodes after adding verified certificates".toList

/-- `Display for TrustGraphError` (trust_graph.rs:55-83), also `From<TrustGraphError> for String` (trust_graph.rs:91-95). -/
inductive TrustGraphError.Says : TrustGraphError → Str → Prop
  | internalStorageError (x : Str) (h : LibraryText x) : Says .internalStorageError ("Internal storage error: ".toList ++ x)
  | noRoot : Says .noRoot "There is no root for this certificate.".toList
  | emptyChain : Says .emptyChain "Chain is empty".toList
  | certificateCheckError {e : CertificateError} {s : Str} (h : e.Says s) : Says (.certificateCheckError e) ("Certificate check error: ".toList ++ s)
  | revokeCheckError {e : RevokeError} {s : Str} (h : e.Says s) : Says (.revokeCheckError e) ("Error on revoking a trust: ".toList ++ s)
  | addTrustError (x : Str) : Says .addTrustError ("Path to ".toList ++ x ++ " not found".toList)
  | trustVerificationError {e : TrustError} {s : Str} (h : e.Says s) : Says (.trustVerificationError e) ("Trust verification error: ".toList ++ s)

/-- `Display for DtoConversionError` (dto.rs:11-33). -/
inductive DtoError.Says : DtoError → Str → Prop
  | base58Error (x : Str) : Says .base58Error ("Cannot convert base58 string to bytes: ".toList ++ x)
  | publicKeyDecodeError {e : DecodingError} {s : Str} (h : e.Says s) :
    Says (.publicKeyDecodeError e) ("Cannot convert string to PublicKey: ".toList ++ s)
  | peerIdDecodeError (x : Str) : Says .peerIdDecodeError ("Cannot decode peer id from string: ".toList ++ x)
  | invalidKeyFormat {e : KeyError} {s : Str} (h : e.Says s) : Says (.invalidKeyFormat e) s

/-- `Display for ServiceError` (service/src/error.rs:23-64).  The text of `InvalidTimestampTetraplet` is the `Debug` form of a list or of a record (misc.rs:38, 41, 45), so
it ends with `]` or `}`; that of `InvalidTimestamp` is "trust" or "revoke" (service_api.rs:216, 264). -/
inductive ServiceError.Says : ServiceError → Str → Prop
  | peerIdParseError (x : Str) : Says .peerIdParseError ("peer id parse error: ".toList ++ x)
  | publicKeyExtractionError (x : Str) :
    Says .publicKeyExtractionError ("public key extraction from peer id failed: ".toList ++ ("peer id parse error: ".toList ++ x))
  | publicKeyDecodeError {e : DecodingError} {s : Str} (h : e.Says s) : Says (.publicKeyDecodeError e) s
  | tgError {e : TrustGraphError} {s : Str} (h : e.Says s) : Says (.tgError e) s
  | certError {e : CertificateError} {s : Str} (h : e.Says s) : Says (.certError e) s
  | dtoError {e : DtoError} {s : Str} (h : e.Says s) : Says (.dtoError e) s
  | trustError {e : TrustError} {s : Str} (h : e.Says s) : Says (.trustError e) s
  | invalidTimestampTetraplet (x : Str) (c : Char) (h : c = ']' ∨ c = '}') :
    Says .invalidTimestampTetraplet ("you should use host peer.timestamp_sec to pass timestamp: ".toList ++ x ++ [c])
  | invalidTimestamp (x : Str) (h : x = "trust".toList ∨ x = "revoke".toList) :
    Says .invalidTimestamp (x ++ " can't be issued later than the current timestamp".toList)
  | notOwner : Says .notOwner "Root could add only by trust graph service owner".toList

/-- The string `error` of a result record (results.rs:11-281, service_api.rs:30-33): empty if there is no error. -/
def Shows : Option ServiceError → Str → Prop
  | none, s => s = []
  | some e, s => e.Says s

end TG
