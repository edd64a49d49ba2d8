/-
The texts that `{:?}` prints for durations (Rust's standard library), trusts (/repo/trust-graph/src/trust.rs) and certificates (/repo/trust-graph/src/certificate.rs), and
the text of the error for expired trusts, which contains two of them.
-/
import Verif.Model.Certificate

namespace TG

/-- The loop of `fmt_decimal` in `Debug for Duration` (core/src/time.rs; used by trust.rs:44, 50, 62): digits as long as something is left, at most 9. -/
def fractionDigits : Nat → Nat → Nat → List Nat
  | 0, _, _ => []
  | n + 1, fraction, divisor => if fraction = 0 then [] else fraction / divisor :: fractionDigits n (fraction % divisor) (divisor / 10)

/-- `fmt_decimal` without precision, width and sign (core/src/time.rs; used by trust.rs:44, 50, 62). -/
def fmtDecimal (integer fraction divisor : Nat) (unit : Str) : Str :=
  let ds := fractionDigits 9 fraction divisor
  showU64 (UInt64.ofNat integer) ++ (if ds = [] then [] else '.' :: ds.map (fun d => Char.ofNat (48 + d))) ++ unit

/-- `Debug for Duration` (core/src/time.rs; used by trust.rs:44, 50, 62). -/
def debugDuration (d : Dur) : Str :=
  if 0 < d.secs.toNat then fmtDecimal d.secs.toNat d.nanos.val 100000000 "s".toList
  else if 1000000 ≤ d.nanos.val then fmtDecimal (d.nanos.val / 1000000) (d.nanos.val % 1000000) 100000 "ms".toList
  else if 1000 ≤ d.nanos.val then fmtDecimal (d.nanos.val / 1000) (d.nanos.val % 1000) 100 "µs".toList
  else fmtDecimal d.nanos.val 0 1 "ns".toList

variable [Env]

/-- `Debug for Trust` with `show_pubkey` and `show_sig` (trust.rs:36-58). -/
def debugTrust (t : Trust) : Str :=
  "Trust { issued_for: ".toList ++ Base58.encode t.issuedFor.encode ++ ", expires_at: ".toList ++ debugDuration t.expiresAt
    ++ ", signature: ".toList ++ Base58.encode t.signature.encode ++ ", issued_at: ".toList ++ debugDuration t.issuedAt ++ " }".toList

/-- `Debug for Vec<Trust>` without the brackets (certificate.rs:39). -/
def debugTrusts : List Trust → Str
  | [] => []
  | [t] => debugTrust t
  | t :: ts => debugTrust t ++ ", ".toList ++ debugTrusts ts

/-- `Debug for Certificate` (certificate.rs:37-40). -/
def debugCertificate (c : Certificate) : Str := "Certificate { chain: [".toList ++ debugTrusts c.chain ++ "] }".toList

/-- The text of the error `Expired` that `Trust::verify` returns (trust.rs:61-63, 135-137). -/
def expiredText (t : Trust) (now : Dur) : Str :=
  "Trust is expired at: '".toList ++ debugDuration t.expiresAt ++ "', current time: '".toList ++ debugDuration now ++ "'".toList

end TG
