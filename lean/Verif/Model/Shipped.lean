/-
The certificates in /repo/builtin-package/on_start.json (the same list is in /repo/distro/init_certs.json), with which the nodes start the service,
and the secret key in /repo/example_secret_key.ed25519.
-/
import Verif.Model.Dto

namespace TG.Shipped

/-- All trusts of the file have these dates and type (on_start.json:1). -/
def trust (issuedFor signature : String) : TrustDto where
  issuedFor := issuedFor.toList
  expiresAt := 1737828468
  signature := signature.toList
  sigType := "ed25519".toList
  issuedAt := 1674756468

/-- The first trust of every certificate (on_start.json:1). -/
def rootTrust : TrustDto :=
  trust "12D3KooWNbZKaPWRZ8wgjGvrxdJFz9Fq5uVwkR6ERV1f74HhPdyB"
    "5ckmaNEw1gNVGk2h8sPsSr7JSumADu6XvuWn8eaZ33etcvfGU5UvnUUtAPwtmc45PZ5dw7F1hbWDQQzu9irFgR4d"

/-- The second trust of the first certificate (on_start.json:1). -/
def exampleTrust : TrustDto :=
  trust "12D3KooWD2vAZva1u3TQgoxebBUBsaGMNawKjVkp57M6UcwNwXNv"
    "2pTTV9B7rZNAZ1kriqN7s64MwE6t2Jwu8HCQZeXaBincZs63BT8HsmfE15sdhyjPeamFirkdfrjbTcGmnj6rUqT4"

/-- The second trust of the other certificates (on_start.json:1). -/
def labelTrust : TrustDto :=
  trust "12D3KooWM45u7AQxsb4MuQJNYT3NWHHMLU7JTbBV66RTfF3KSzdR"
    "3KxewKYjYvv4XaSpKRpnY6rNaawArLfHCeCsB95tZX9BWdwK3kJTbnsXG8WSUDip9oMC48QJMKinLrivuPDy5Egy"

/-- The third trusts of the other certificates (on_start.json:1). -/
def nodeTrusts : List TrustDto := [
  trust "12D3KooWSD5PToNiLQwKDXsu8JSysCwUt8BVUJEqCHcDe7P5h45e"
    "wRpqimG2Lg8wAu3PGfmTxGuQMaYTZrd5QmjsbwZTfWJELWpqfngrFpDgNUqPZHHj4cfZTJ9gyRSTqTMFDDU2TXv",
  trust "12D3KooWR4cv1a8tv7pps4HH6wePNaK6gf1Hww5wcCMzeWxyNw51"
    "VYcXmcRHaSH8BbN5qrV7WCQs9WHJ7Hj25YUqVM1ptv6U4AbY5PPZa75ToRnmYA3jacVbHr7aUiSCup6DA6wxbbs",
  trust "12D3KooWKnEqMfYo9zvfHmqTLpLdiHXPe4SVqUWcWHDJdFGrSmcA"
    "4SBUyxAykijkX7WSPFoSjBBjW8yN5SNefU7ojqqS18pPAD7TJZvD2wunASsAah6ctfvng7gUeQKfYRqDpTo46Y9Y",
  trust "12D3KooWHLxVhUQyAuZe6AHMB29P7wkvTNMn7eDMcsqimJYLKREf"
    "2dTSfzds7ySvqDVZTAXXGg2wnYnXAqfA8n7mceG7tpi55qCyzF8X86YaQHWhwzKazvfG68vY4za6e5UHDLZwsFcy",
  trust "12D3KooWJd3HaMJ1rpLY1kQvcjRPEvnDwcXrH8mJvk7ypcZXqXGE"
    "3ppaDSfnSFGK9hRMr5dZTkUDx27TKDS6P119WS75sTXdBEdVexQLTSynP2efczmfCxxthYLWYShATGejs9mfeVsT",
  trust "12D3KooWFEwNWcHqi9rtsmDhsYcDbRUCDXH84RC4FW6UfsFWaoHi"
    "4j6h2z7aHmipWagZdjtow1n9ptJi8fvJNwgLGeaottGepa3rbCcUfByaP3D5CDZP5AeUUXwAW2E91dnPa9NQELAx",
  trust "12D3KooWCMr9mU894i8JXAFqpgoFtx6qnV1LFPSfVc3Y34N4h4LS"
    "3YEf3dEGdHZqYcM1B1sE3BsEMt337LU8xS8Pv9v8XtGynghqK6K6pKWzE9qX1C7zHfRPcaq4juTc9xLrYfC2QytR",
  trust "12D3KooWDUszU2NeWyUVjCXhGEt1MoZrhvdmaQQwtZUriuGN1jTr"
    "37cEiDjMYywY7Lh1RC3H32qpTcBkgmykPLUyVrW1qmoaSEmXWV6rWdXDaXdVF2VhxxVpwXzSeTAMhJXYDVEn18ch",
  trust "12D3KooWEFFCZnar1cUJQ3rMWjvPQg6yMV2aXWs2DkJNSRbduBWn"
    "4J4NbEtFYzpgpdYQaV6zWjwaSxt9HezarAHVHpWvKCr2dn7tGLAuf9D3SnUAAeV537rzvvLdMP9vHHGSdnsccFDt",
  trust "12D3KooWFtf3rfCDAfWwt6oLZYZbDfn9Vn7bv7g6QjjQxUUEFVBt"
    "pfYMm7enoq69WVPgcAFYTmWUAejSJXXdKRpk2ffweSVwzJTVE3DwdWYEmbS96emcVFP3gWPm4sLeM5yVLXuzx87",
  trust "12D3KooWD7CvsYcpF9HE9CCV9aY3SJ317tkXVykjtZnht2EbzDPm"
    "3FHZheEHCbveBEoS1m41nTESsfSBBixLpdKYSMTgmnk1s5hB9o1VjPdC9XPTnSHsBpnog4ASeRB8b9bzAiz3ZxDD"]

/-- The value of `certs` (on_start.json:1, init_certs.json: `certs`). -/
def certs : List CertDto :=
  ⟨[rootTrust, exampleTrust]⟩ :: nodeTrusts.map fun t => ⟨[rootTrust, labelTrust, t]⟩

/-- The text of example_secret_key.ed25519:1; the same text is in example/index.ts:81. -/
def exampleSecret : Str := "E5ay3731i4HN8XjJozouV92RDMGAn3qSnb9dKSnujiWv".toList

end TG.Shipped
