/-
The texts of /repo/distro/init_certs.json and /repo/builtin-package/on_start.json, cut into pieces; the text of a trust that comes in several certificates is
written here once.
-/
import Verif.Model.Distro

namespace TG
namespace Distro
namespace Text

/-- The text of the trust for HhPdyB (builtin-package/on_start.json:1, distro/init_certs.json:1). -/
def rootTrust : String :=
  "{\"sig_type\":\"ed25519\",\"expires_at\":1737828468,\"issued_at\":1674756468,\
   \"issued_for\":\"12D3KooWNbZKaPWRZ8wgjGvrxdJFz9Fq5uVwkR6ERV1f74HhPdyB\",\"signature\":\"5ckmaNEw1gNVGk2h8sPsSr7JSumADu6XvuWn8eaZ33etcvfGU5UvnUUtAPwtmc45PZ5dw7F1hbWDQQzu9irFgR4d\"}"

/-- The text of the trust for wNwXNv (builtin-package/on_start.json:1, distro/init_certs.json:1). -/
def exampleTrust : String :=
  "{\"sig_type\":\"ed25519\",\"expires_at\":1737828468,\"issued_at\":1674756468,\
   \"issued_for\":\"12D3KooWD2vAZva1u3TQgoxebBUBsaGMNawKjVkp57M6UcwNwXNv\",\"signature\":\"2pTTV9B7rZNAZ1kriqN7s64MwE6t2Jwu8HCQZeXaBincZs63BT8HsmfE15sdhyjPeamFirkdfrjbTcGmnj6rUqT4\"}"

/-- The text of the trust for 3KSzdR (builtin-package/on_start.json:1, distro/init_certs.json:1). -/
def labelTrust : String :=
  "{\"sig_type\":\"ed25519\",\"expires_at\":1737828468,\"issued_at\":1674756468,\
   \"issued_for\":\"12D3KooWM45u7AQxsb4MuQJNYT3NWHHMLU7JTbBV66RTfF3KSzdR\",\"signature\":\"3KxewKYjYvv4XaSpKRpnY6rNaawArLfHCeCsB95tZX9BWdwK3kJTbnsXG8WSUDip9oMC48QJMKinLrivuPDy5Egy\"}"

/-- The text of the trust for P5h45e (builtin-package/on_start.json:1, distro/init_certs.json:1). -/
def node1 : String :=
  "{\"sig_type\":\"ed25519\",\"expires_at\":1737828468,\"issued_at\":1674756468,\
   \"issued_for\":\"12D3KooWSD5PToNiLQwKDXsu8JSysCwUt8BVUJEqCHcDe7P5h45e\",\"signature\":\"wRpqimG2Lg8wAu3PGfmTxGuQMaYTZrd5QmjsbwZTfWJELWpqfngrFpDgNUqPZHHj4cfZTJ9gyRSTqTMFDDU2TXv\"}"

/-- The text of the trust for xyNw51 (builtin-package/on_start.json:1, distro/init_certs.json:1). -/
def node2 : String :=
  "{\"sig_type\":\"ed25519\",\"expires_at\":1737828468,\"issued_at\":1674756468,\
   \"issued_for\":\"12D3KooWR4cv1a8tv7pps4HH6wePNaK6gf1Hww5wcCMzeWxyNw51\",\"signature\":\"VYcXmcRHaSH8BbN5qrV7WCQs9WHJ7Hj25YUqVM1ptv6U4AbY5PPZa75ToRnmYA3jacVbHr7aUiSCup6DA6wxbbs\"}"

/-- The text of the trust for GrSmcA (builtin-package/on_start.json:1, distro/init_certs.json:1). -/
def node3 : String :=
  "{\"sig_type\":\"ed25519\",\"expires_at\":1737828468,\"issued_at\":1674756468,\
   \"issued_for\":\"12D3KooWKnEqMfYo9zvfHmqTLpLdiHXPe4SVqUWcWHDJdFGrSmcA\",\"signature\":\"4SBUyxAykijkX7WSPFoSjBBjW8yN5SNefU7ojqqS18pPAD7TJZvD2wunASsAah6ctfvng7gUeQKfYRqDpTo46Y9Y\"}"

/-- The text of the trust for YLKREf (builtin-package/on_start.json:1, distro/init_certs.json:1). -/
def node4 : String :=
  "{\"sig_type\":\"ed25519\",\"expires_at\":1737828468,\"issued_at\":1674756468,\
   \"issued_for\":\"12D3KooWHLxVhUQyAuZe6AHMB29P7wkvTNMn7eDMcsqimJYLKREf\",\"signature\":\"2dTSfzds7ySvqDVZTAXXGg2wnYnXAqfA8n7mceG7tpi55qCyzF8X86YaQHWhwzKazvfG68vY4za6e5UHDLZwsFcy\"}"

/-- The text of the trust for ZXqXGE (builtin-package/on_start.json:1, distro/init_certs.json:1). -/
def node5 : String :=
  "{\"sig_type\":\"ed25519\",\"expires_at\":1737828468,\"issued_at\":1674756468,\
   \"issued_for\":\"12D3KooWJd3HaMJ1rpLY1kQvcjRPEvnDwcXrH8mJvk7ypcZXqXGE\",\"signature\":\"3ppaDSfnSFGK9hRMr5dZTkUDx27TKDS6P119WS75sTXdBEdVexQLTSynP2efczmfCxxthYLWYShATGejs9mfeVsT\"}"

/-- The text of the trust for FWaoHi (builtin-package/on_start.json:1, distro/init_certs.json:1). -/
def node6 : String :=
  "{\"sig_type\":\"ed25519\",\"expires_at\":1737828468,\"issued_at\":1674756468,\
   \"issued_for\":\"12D3KooWFEwNWcHqi9rtsmDhsYcDbRUCDXH84RC4FW6UfsFWaoHi\",\"signature\":\"4j6h2z7aHmipWagZdjtow1n9ptJi8fvJNwgLGeaottGepa3rbCcUfByaP3D5CDZP5AeUUXwAW2E91dnPa9NQELAx\"}"

/-- The text of the trust for N4h4LS (builtin-package/on_start.json:1, distro/init_certs.json:1). -/
def node7 : String :=
  "{\"sig_type\":\"ed25519\",\"expires_at\":1737828468,\"issued_at\":1674756468,\
   \"issued_for\":\"12D3KooWCMr9mU894i8JXAFqpgoFtx6qnV1LFPSfVc3Y34N4h4LS\",\"signature\":\"3YEf3dEGdHZqYcM1B1sE3BsEMt337LU8xS8Pv9v8XtGynghqK6K6pKWzE9qX1C7zHfRPcaq4juTc9xLrYfC2QytR\"}"

/-- The text of the trust for GN1jTr (builtin-package/on_start.json:1, distro/init_certs.json:1). -/
def node8 : String :=
  "{\"sig_type\":\"ed25519\",\"expires_at\":1737828468,\"issued_at\":1674756468,\
   \"issued_for\":\"12D3KooWDUszU2NeWyUVjCXhGEt1MoZrhvdmaQQwtZUriuGN1jTr\",\"signature\":\"37cEiDjMYywY7Lh1RC3H32qpTcBkgmykPLUyVrW1qmoaSEmXWV6rWdXDaXdVF2VhxxVpwXzSeTAMhJXYDVEn18ch\"}"

/-- The text of the trust for bduBWn (builtin-package/on_start.json:1, distro/init_certs.json:1). -/
def node9 : String :=
  "{\"sig_type\":\"ed25519\",\"expires_at\":1737828468,\"issued_at\":1674756468,\
   \"issued_for\":\"12D3KooWEFFCZnar1cUJQ3rMWjvPQg6yMV2aXWs2DkJNSRbduBWn\",\"signature\":\"4J4NbEtFYzpgpdYQaV6zWjwaSxt9HezarAHVHpWvKCr2dn7tGLAuf9D3SnUAAeV537rzvvLdMP9vHHGSdnsccFDt\"}"

/-- The text of the trust for UEFVBt (builtin-package/on_start.json:1, distro/init_certs.json:1). -/
def node10 : String :=
  "{\"sig_type\":\"ed25519\",\"expires_at\":1737828468,\"issued_at\":1674756468,\
   \"issued_for\":\"12D3KooWFtf3rfCDAfWwt6oLZYZbDfn9Vn7bv7g6QjjQxUUEFVBt\",\"signature\":\"pfYMm7enoq69WVPgcAFYTmWUAejSJXXdKRpk2ffweSVwzJTVE3DwdWYEmbS96emcVFP3gWPm4sLeM5yVLXuzx87\"}"

/-- The text of the trust for EbzDPm (builtin-package/on_start.json:1, distro/init_certs.json:1). -/
def node11 : String :=
  "{\"sig_type\":\"ed25519\",\"expires_at\":1737828468,\"issued_at\":1674756468,\
   \"issued_for\":\"12D3KooWD7CvsYcpF9HE9CCV9aY3SJ317tkXVykjtZnht2EbzDPm\",\"signature\":\"3FHZheEHCbveBEoS1m41nTESsfSBBixLpdKYSMTgmnk1s5hB9o1VjPdC9XPTnSHsBpnog4ASeRB8b9bzAiz3ZxDD\"}"

end Text

/-- The file distro/init_certs.json:1, which is `KRAS_CERTS_JSON` (distro/src/lib.rs:20; build.sh:12 copies it). -/
def initCerts : List String := [
  "{\"root_node\":\"12D3KooWNbZKaPWRZ8wgjGvrxdJFz9Fq5uVwkR6ERV1f74HhPdyB\",\"max_chain_length\":5,\"certs\":[{\"chain\":[", Text.rootTrust, ",",
  Text.exampleTrust, "]},{\"chain\":[", Text.rootTrust, ",", Text.labelTrust, ",", Text.node1, "]},{\"chain\":[", Text.rootTrust, ",", Text.labelTrust,
  ",", Text.node2, "]},{\"chain\":[", Text.rootTrust, ",", Text.labelTrust, ",", Text.node3, "]},{\"chain\":[", Text.rootTrust, ",", Text.labelTrust, ",",
  Text.node4, "]},{\"chain\":[", Text.rootTrust, ",", Text.labelTrust, ",", Text.node5, "]},{\"chain\":[", Text.rootTrust, ",", Text.labelTrust, ",",
  Text.node6, "]},{\"chain\":[", Text.rootTrust, ",", Text.labelTrust, ",", Text.node7, "]},{\"chain\":[", Text.rootTrust, ",", Text.labelTrust, ",",
  Text.node8, "]},{\"chain\":[", Text.rootTrust, ",", Text.labelTrust, ",", Text.node9, "]},{\"chain\":[", Text.rootTrust, ",", Text.labelTrust, ",",
  Text.node10, "]},{\"chain\":[", Text.rootTrust, ",", Text.labelTrust, ",", Text.node11, "]}]}\n"]

/-- The file builtin-package/on_start.json:1. -/
def onStart : List String := [
  "{\"certs\":[{\"chain\":[", Text.rootTrust, ",", Text.exampleTrust, "]},{\"chain\":[", Text.rootTrust, ",", Text.labelTrust, ",", Text.node1,
  "]},{\"chain\":[", Text.rootTrust, ",", Text.labelTrust, ",", Text.node2, "]},{\"chain\":[", Text.rootTrust, ",", Text.labelTrust, ",", Text.node3,
  "]},{\"chain\":[", Text.rootTrust, ",", Text.labelTrust, ",", Text.node4, "]},{\"chain\":[", Text.rootTrust, ",", Text.labelTrust, ",", Text.node5,
  "]},{\"chain\":[", Text.rootTrust, ",", Text.labelTrust, ",", Text.node6, "]},{\"chain\":[", Text.rootTrust, ",", Text.labelTrust, ",", Text.node7,
  "]},{\"chain\":[", Text.rootTrust, ",", Text.labelTrust, ",", Text.node8, "]},{\"chain\":[", Text.rootTrust, ",", Text.labelTrust, ",", Text.node9,
  "]},{\"chain\":[", Text.rootTrust, ",", Text.labelTrust, ",", Text.node10, "]},{\"chain\":[", Text.rootTrust, ",", Text.labelTrust, ",", Text.node11,
  "]}]}"]

end Distro
end TG
