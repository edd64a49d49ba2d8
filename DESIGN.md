# Formal model of fluencelabs/trust-graph — design

Source of truth: `/repo` (read as text, never built). Model and proofs: `/verif/lean` (Lean 4.33.0).

## 1. Trusted base

* Lean's kernel. Every property theorem may depend only on `propext`, `Classical.choice`, `Quot.sound`
  (`#print axioms`). No axioms of our own, no `sorry`, no `native_decide` / `bv_decide`.
* The reading of the Rust text by the author: each model definition cites the file and lines it models
  and says where it simplifies.
* Parameters (class `Env`, not axioms): the cryptographic primitives and other code outside the
  repository (SHA-256, Ed25519, ECDSA, RSA, libp2p protobuf key decoding, SQLite row order). Nothing is
  assumed about them except in theorems that take the hypothesis class `LawfulEnv` (a signature made by a
  key verifies under it, fixed lengths, protobuf round trip). A toy instance shows that the laws are
  satisfiable.

## 2. What is modelled

| Part of /repo | Lean module | How |
|---|---|---|
| keypair: `PublicKey`, `Signature`, `KeyFormat`, `KeyPair`, ed25519/secp256k1/rsa wrappers | `Model/Keypair` | byte-level encode/decode, dispatch on key type; primitives are `Env` parameters; RSA exists only natively (cfg `target_arch`) |
| keypair: `generate` | `Model/Generate` | over any sequence of random blocks; a failing source is not modelled |
| keypair: DER wrapping of RSA public keys | `Model/Der` | byte level |
| service/src/storage_impl.rs with its SQL texts, `create_tables` | `Model/Sql`, `Model/SqlStorage` | the nine statements are parsed and executed by an interpreter of the SQL subset they use: declared types, primary keys, conditions, parameters |
| keypair: readers of secrets from caller's buffers, with zeroization; RFC 5915 input | `Model/SecretBytes` | the buffer is the state; `ring`'s PKCS#8 parser is a parameter; temporary copies are not modelled |
| bs58 crate (used for keys, signatures, peer ids) | `Base58` | implemented concretely |
| libp2p peer ids, multihash, protobuf form of keys | `Model/PeerId` | byte level; protobuf *reading* is an `Env` parameter |
| peer ids under serde (`peerid_serializer`) | `Model/PeerIdSerde` | the serde format itself (JSON string or other) is not modelled |
| serde of keys, signatures, trusts, revocations and relations (derived, and handwritten for Secp256k1) | `Model/Serde` | values of serde's data model; a format is how byte strings, structs and variants are presented; serde's own implementations for `Vec<u8>` and `Duration`, and that of ed25519-dalek, are modelled from their documented behaviour |
| `Display` of all errors (`#[error(...)]`) | `Model/ErrorText` | a relation between errors and texts; what is quoted is arbitrary, except that library texts do not end with "Key format is not supported" |
| keypair/src/key_pair.rs, conversions from and to libp2p key pairs | `Model/Libp2p` | libp2p pairs hold the same secrets; its checks of a secret are those of this crate; the `transmute` of RSA pairs is the identity |
| trust.rs, revoke.rs | `Model/Trust` | function by function, byte and character level |
| certificate.rs, certificate_serde.rs, chain.rs | `Model/Certificate`, `Model/Text` | function by function, byte and character level |
| trust_relation.rs, trust_graph_storage.rs, trust_graph.rs | `Model/Graph` | the trait as a Lean class of stateful methods; function by function over any `Storage` |
| public_key_hashable.rs | `Model/Hashable` | `Hash`, `Display`, serde over an abstract data format |
| service/storage_impl.rs | `Model/Sqlite` | SQL tables as row lists with SQLite semantics of the statements used; any statement may fail (fault schedule) |
| service/service_api.rs, misc.rs, results.rs, error.rs | `Model/Service` | function by function, over any storage; `CallParameters` explicit |
| service/misc.rs `INSTANCE`, `with_tg`, main.rs | `Model/Instance` | the memory of the running module: whether the `RefCell` is borrowed; a panic traps without unwinding (wasm32-wasi) and Marine goes on using the instance |
| service/dto.rs | `Model/Dto` | function by function |
| aqua/labelling.aqua `isFluencePeer` | `Model/Aqua` | the decision over the returned certificates |
| aqua/trust-graph-api.aqua as interruptible programs | `Model/AquaProg` | the same functions, cut at every clock reading, signature and service call; a service call is one step (Marine runs one at a time) |
| aqua/trust-graph-api.aqua, `append_error` of misc.aqua | `Model/AquaApi` | function by function; nodes with clocks, tetraplets of the arguments, a signature service |
| builtin-package/on_start.air | `Model/OnStart` | the script over the service functions; every clock value explicit |
| admin/index.ts | `Model/Admin` | the making of the certificates |
| distro/src/lib.rs; the JSON files on_start.json and init_certs.json; `JSON.stringify` of admin/index.ts | `Model/Json`, `Model/Distro`, `Model/DistroText` | character level: serde_json's reader and writer, the derived `Deserialize`/`Serialize`, the texts of both files; the embedded wasm modules are not modelled |
| example/aqua/computation.aqua, example/index.ts | `Model/Example` | the decision over the returned certificates; the run of the program, with the readings of the relay's clock as a parameter |

Conventions.

* A Rust call returns `Outcome ε α`: `ok`, `err` (Result::Err), `panic` or `diverge`.
* Stateful methods are `S → Outcome ε α × S`; the state after an error or a panic is kept, because Rust does
  not roll back.
* `u64` seconds are `UInt64`; `i64` columns are `Int` through explicit two's complement casts; `u32`
  arithmetic is explicit about overflow (debug builds panic, release builds wrap).
* `Duration` has seconds and nanoseconds (only seconds are signed and stored).
* Each SQL statement consumes one entry of a fault schedule: `true` makes the statement fail and leave the
  database as it was. The empty schedule means no faults. A crash of the process at a statement has the same
  persistent effect as that statement failing, since all errors are propagated with `?` immediately.
* The row order of SELECT is an arbitrary permutation chosen by the environment (`Env.scan`).
* The `while` loop of `bf_search_paths` is run with fuel; running out of fuel is the outcome `diverge`; a theorem
  says it is never reached.

Validation of the model. `Conformance/ServiceTests` transcribes every test of service/src/tests.rs, and `Conformance/LibraryTests` those of the library crates
(except RSA key files), as programs over the model. The kernel evaluates them in the toy environment, and all assertions hold. These are
tests that the model was read off the code rightly, not properties.

## 3. What is not modelled

* Numeric internals of SHA-256, Ed25519, ECDSA, RSA, DER and protobuf parsing inside dependencies. C123 alone assumes that SHA-256 and the verification of Ed25519
  are those of the standards (`Spec.Conforms`), which are written down in `Spec/Sha2.lean` and `Spec/Ed25519.lean` and agree with the published test vectors.
* SQLite internals (file format, locking, query planner). SQL is modelled by the documented meaning of the subset used; `Model/Sqlite`, the form all other theorems use, is proved to agree with the texts (C101).
* Logging; `Debug` formatting except that of keys (`Model/Debug`) and of trusts, certificates and times (`Model/DebugTrust`). Errors are constructors; which texts they can have is modelled (`Model/ErrorText`), with arbitrary texts inside.
* Sources of randomness (their output is a parameter), zeroization of temporaries (that of caller's buffers is modelled), `misc::current_time`.
* Concurrency: the service is single-threaded (`thread_local` + `RefCell`, Marine runs one call at a time). What a trap leaves in memory is modelled (`Model/Instance`); that Marine keeps
  the instance after a trap is an assumption.
* aqua/trust-graph.aqua and aqua/export.aqua, which only declare the service's functions and re-export the others.
* The AIR/Aqua runtime itself (routing, streams, joins, particle expiry), npm packaging, CI.

## 4. Findings: where the code disagrees with what a user expects

For these, the full property is kept in `properties.jsonl`, the negation is proved with a concrete witness
(theorem suffix `_fails`), and what does hold is proved with suffix `_partial`.

* F1 (C41, C124) `secp256k1.rs::verify_hashed` discards the boolean of `libsecp256k1::verify`: every parseable signature is accepted.
* F2 (C07) `bf_search_paths` never looks up the revocations of the issuer of the last trust, so R→Y→X→T stays valid although R revoked X. So a key of weight 2 can confer weight 128 (C96, C97).
* F3 (C34) table `roots` has no primary key: a second `set_root` for the same key appends a row that is never read.
* F4 (C31) expiry is stored `as i64`: an expiry ≥ 2^63 (e.g. `issue_root`'s `u64::MAX`) is negative and collected by the next query.
* F5 (C30) `Trust::verify` accepts `expires_at == now`, `remove_expired` deletes it at `now`.
* F6 (C29) collection of a newer expired trust forgets the revocation it superseded: an older, revoked trust can be added again.
* F7 (C12) weight never becomes 0 on long chains: `2^(16 - min(16, factor)) ≥ 1`.
* F8 (C57) `get_weight_from` checks the tetraplet of argument 1 (issuer) instead of 2 (timestamp).
* F9 (C58) `insert_cert(_raw)` accept any timestamp, so any caller can make the service collect all trusts.
* F10 (C22) `add` is not atomic and reports success when nothing was stored.
* F11 (C53) `issue_with_trust` never checks the trust it appends.
* F12 (C46, C47) length bytes `as u8` truncate: RSA-sized keys or > 255 trusts do not round-trip.
* F13 (C49) decoders panic on empty keys/signatures, trailing bytes and certificates of fewer than two lines.
* F14 (C09) `get_all_certs_from(t, t)` returns all certificates of `t`, also those with no trust issued by `t`.
* F15 (C21) the weight returned by `add_trust` can exceed the resulting weight.
* F16 (C40) with RSA keys (arbitrary bytes) a trust message can equal a revocation message.
* F17 (C71) `update_relation` compares the issue time with nanoseconds against stored whole seconds: the same trust with a fraction of a
  second overrides again and again. Nothing that comes through the service has fractions.
* F18 (C08, C17, C28, C36, C69, C70) for times from 2^63 seconds on the signed comparison in SQL takes expired trusts for live ones.
* F19 (C73) `PublicKeyHashable` does not survive formats that write byte strings as sequences (JSON): the visitor reads only strings and byte strings.
* F20 (C78) consequence of F8: the published Aqua function `get_weight_from` is always refused.
* F21 (C76, C81) `update_relation` replaces only on strictly later dates: a revocation dated in the same second as the trust is accepted and
  dropped. Likewise a new trust in the second of a revocation.
* F22 (C80) Aqua `add_root_trust` sets the root before importing the trust: when the import is refused (the clock of the node is behind that of the
  relay) an error is reported and the root stays, without its self-signed trust.
* F23 (C83) the certificates shipped in builtin-package/on_start.json (distro) expired on 2025-01-25 18:07:48 UTC. Since then the start script reports
  an error for each of them and then `true`, and only sets the root. It goes on after errors and calls `op.return` several times.
* F24 (C89) README FAQ: for a root with maximum chain length 4 and a chain R -> A -> B -> C the weights are said to be 8, 4, 2, 1. They are 16, 8, 4, 2;
  the numbers given are those of maximum chain length 3.
* F25 (C90) README, "Create a trusted subnetwork": `get_weight_from(targetPeer, peerA)` is said to reflect whether targetPeer is in the subnetwork. It is 0
  for peer A itself, as the root trust alone is never returned as a certificate. (`get_weight` does reflect membership.)
* F26 (C95) `get_all_certs` / `add` carry trusts from node to node but no revocations: after all certificates of a key have been carried to a new node with the
  same roots, the key can have a greater weight there than on the first node, through a chain that is revoked on the first (`C95_weight_fails`).
* F27 (C103) the search enumerates all simple paths, also those far longer than `max_chain_len`. A key that a root trusts directly can make n further keys trust each other and any victim: with n² + n + 2 stored relations the victim has at least n! certificates, so every `weight`, `get_all_certs` or `add_trust` that involves the victim takes that long: `C103_cost` shows that each executes at least one SQL statement per certificate of the victim.
* F28 (C104) `PublicKey` and `Signature` derive serde with the `Rsa` variant in the middle and only on native targets. Formats that number variants (bincode, a dependency of the service) therefore give Secp256k1 the number 2 natively and 1 on wasm32: a Secp256k1 key or signature written natively cannot be read by the service, and one written on wasm32 is read natively as RSA. Nothing in /repo serialises keys this way at present.
* F29 (C106) `Certificate::from_str` reports "Cannot convert trust number N" with the number of the line at which the trust begins (2, 6, 10, …), which is never the number of the
  trust; `Certificate::decode` refuses certificates with one trust, saying "The certificate must have at least 1 trust".
* F30 (C108) a consequence of F13: the service is built for wasm32-wasi, where a panic traps without running destructors. `insert_cert_raw` parses the text inside `with_tg`, so a
  trap leaves the `RefCell` of `INSTANCE` borrowed. From then on every call that needs the graph traps in `borrow_mut`, for all callers, until the module is started again. Anyone can
  do this with `insert_cert_raw("", 0)`; nothing is checked before. Parsing the text before `with_tg` would not do either as long as the parser panics, but would confine the
  damage to the one call.
* F31 (C109) `add_root_trust` (trust-graph-api.aqua:92-107) sets the root and imports its self-signed trust in two service calls. A client that asks in between sees the weight of the new root, and
  after that the certificates without it; this is not explained by any order of the functions. The service offers no call that does both.
* F32 (C110) nodes that have been told the same, and that learn nothing new from being told again, may disagree for ever: a trust is taken only if its issuer has weight when it arrives. By F2
  a trust of a key that was revoked later goes on counting on nodes that heard of it before the revocation and is not taken by the others; by F7 the same happens for chains that are too long.
* F33 (C111) the documentation of the public `certificates_weight_factor` says that it answers `None` if "some trust between this key and a root key is revoked". It looks only at the first key and the length
  of each certificate: revoked, expired, unknown and unsigned certificates count.
* F34 (C112) `KeyPair::generate(KeyFormat::Rsa)`, which every native program can reach through `KeyFormat::from_str("rsa")`, panics (`todo!`).
* F35 (C114) `revoke` stores every correctly signed revocation, whoever signed it, and nothing ever removes one, so anybody can make the database and the answers of `get_revocations` as long as they like (`C114_pile_up`).
* F36 (C117) `add` cannot simply be repeated: the trusts of a certificate are added from the first to the last, and one whose issuer has no weight is skipped silently. A later trust of the same certificate may give that issuer weight, through relations stored before, so that adding the certificate once more stores more of it (`C117_fails`). It does not happen to certificates that can be imported (C82).
* F37 (C68) `decode_x509` skips the first octet of the BIT STRING, the number of unused bits, without looking at it (rsa.rs:215), so that 256 byte strings decode to one RSA key; DER allows one (`C68_several_encodings`).
* F38 (C122) outside the model: the administration program prints the secret keys of the root and of the label issuer on the console (admin/index.ts:58, 60), while the library takes care that
  printing a key pair does not (C122).
* F39 (C128) a row of `trust_relations` that cannot be read is skipped when trusts and revocations are listed, but `get_relation` fails on it, and every write asks `get_relation` first. So the damaged row
  is never overwritten: its issuer cannot revoke its key any more (`C128_blocked_fails`). The table of roots has no such tolerance: one unreadable row makes every question about certificates and weights fail (`C128_roots_fails`).
  An empty text or empty bytes in a row trap (F13, `C128_empty_fails`), after each restart again. A row changed into another readable one is believed: signatures are checked when a trust or revocation arrives, never when it is read.
* F40 (C132) with the feature `cargo-clippy` the text behind `KRAS_CERTS` is `{}` (distro/src/lib.rs:22), which has none of the required fields, so that the first use of the static panics. The files that are shipped can be read.
* F41 (C128) signatures are checked when a trust is submitted, never when it is read. Whoever can write to the database file can have the service certify any key, with any bytes for a signature; only a client that verifies the certificates itself notices (C130).

Smaller observations, covered by the theorems named: certificate decoding ignores the format and version bytes (C46 notes); `issue` and
`issue_with_trust` panic on an empty chain (`extend_by`, under F13); the service labels a trust's signature with the key format of the
*recipient* (harmless by C43: the label is never looked at).
Not covered, as nothing calls or reaches them: `impl From<SQLiteStorageError> for String` (storage_impl.rs:184-188) calls itself; the `thread_local`
storage panics if the database file cannot be opened (misc.rs).

## 5. Plan per property

Spec vocabulary (module `Spec`): stored relations as a set of trusts and revocations (`Graph`), `ValidPath` (root-first list of
stored trusts), `Live t now`, reachable states = states produced by any list of API calls from the empty
database under any fault schedule.

| Property | Plan |
|---|---|
| C01–C03, C05, C06 | characterise the BFS queue by levels; `terminated` = admissible paths; induction on levels; permutation-invariance of row order |
| C04 | measure Σ (n+1)^(n+1-len) over the queue strictly decreases; fuel bound never reached |
| C07 | negation with a 4-key graph; partial theorem for every C except the last issuer |
| C08 | from C01 + C33 + C28 + C51 |
| C09, C13 | filter characterisation |
| C10–C12 | fold computation of the minimum; bounds; invariant root factor ≤ 16, chain length < 2^32 − 16 |
| C14 | release builds: wrapping arithmetic cannot fail; debug builds: every chain returned is shorter than 2^32 − 16 under `Db.Bounded` |
| C15–C17, C36, C69, C70 | path sets before/after through C02 |
| C18–C22 | direct on `addTrust`/`add`, for every storage implementation where possible |
| C23–C28, C32 | refinement of row lists to a map; invariants over histories |
| C29–C31 | negations with concrete histories; partial theorems with the missing hypothesis |
| C33–C35 | invariants over histories with faults |
| C37 | row filter |
| C38–C43 | unfold verify/create; injectivity of encodings |
| C44–C50, C60, C63, C66–C68 | parse ∘ print = id |
| C51–C54 | unfold certificate.rs |
| C55–C59, C61, C62, C64 | unfold service functions over all call contexts |
| C65 | decision procedure over C09 |
| C71 | `Newer` with fractions of seconds: negation; partial for whole seconds |
| C72 | invariant "every row comes from an earlier call with a valid signature" over histories with faults |
| C73 | serde data formats as a pair of printers/readers with laws |
| C74 | no-trap calculus over all calls (`Proofs/NoTrap`); with the exact panics of C49, the exact texts on which `insert_cert_raw` traps (`Props/ServiceTraps`) |
| C75 | service calls unfold to the library call between two conversions that round-trip (C60, C63) |
| C76 | `Db.update` in terms of `Newer`; negation by a tie |
| C77–C81 | Aqua functions unfold to service calls (C75); negations with concrete nodes |
| C82 | induction over the trusts of the certificate, then over the list; `Db.weight` of the issuer at each step from its prefix |
| C83, C85 | unfold the script to service calls (C75); C82; invariants of single calls |
| C84 | unfold the administration program; the certificates form a bundle (C82); exact weights from all admissible paths |
| C86, C87 | C77, C09 and C02; the certificate extended by one trust; C29 for the time after the revocation |
| C88 | `weight ≥ 2` in terms of certificates (C10); the first call after which a trust is stored |
| C89 | the admissible certificates are the beginnings of the chain, by induction on the index; C82 for the import |
| C90 | certificates of a star; induction over the trusts put |
| C91 | C10, C11, C29; roots change only by `set_root` |
| C92 | an invariant of the run: the client's certificate stays extensible; which nodes are trusted and revoked, and the dates of the client's relations |
| C93 | C92 on the database of C84 |
| C94 | case analysis on the format, with C67 |
| C95 | returned certificates are a `Bundle` for the empty node (C82); stored relations of the two nodes compared; greatest elements compared |
| C96 | the beginning of a certificate up to the issuer is a certificate of the issuer; powers of two |
| C97 | the first compromised key on a new certificate: what is before it was there already; invariant over `Later` for the rest; through the service (C97_service) with C125 and C140_time |
| C98 | inverse functions, with C50 |
| C99 | forward simulation between the tables and the state of the machine of `Spec/Machine`, call by call, with fault schedules |
| C100 | readers as state transformers on the buffer; DER parser against a relational grammar, both directions, by induction on the objects |
| C101 | simulation between two storages carries over to all functions of the graph, as these only use the trait (`Proofs/Simulation`); statement by statement simulation; then C99 |
| C102 | Hoare triples for the functions of the graph over an abstract storage (`Spec/Contract`), the search theory is generic over what the storage lists; then call by call as C99. A second storage, in memory with another list order, is a witness only and not part of the project |
| C103 | import of a bundle of certificates (C82) that form a complete graph; permutations of the keys inject into the certificates; the bound by induction on the length; the number of statements through the fault schedule: `N` successes and a failure are noticed if there are more than `N` certificates; the exact number by following the loop level by level, the chains of the search being the trails of `Spec/Trail.lean` |
| C104 | serialisers and readers over serde's data model, parameterised by the format; two environments for two targets: equal values are written, so the round trip of the reader's target applies |
| C105 | a table of how the texts of each reason begin once digits are left out; no entry begins another of a different reason; `InvalidKeyFormat`, which begins with the caller's text, by how texts end |
| C106 | the first failure of the loops, by induction; determinism for the converse |
| C107 | every call is one of: a library call, a computation, a refusal, a trap (`Call.fate`, for any storage); then C99 and C101 by induction on the run; determinism by uniqueness of what texts and records name |
| C108 | invariant "borrowed" along the run after the trap; without such texts, from C107 by induction on the run of the machine |
| C109 | all calls before the last one of a function do not look at the graph (`Call.fate`), so what has happened so far is independent of the storages; induction on the run: the function executed at once when it returns gives the same |
| C110 | as states of the reference machine (C99): two settled nodes that both hear a key know the same about what it says, since each has something at least as new as the other; induction along the certificate, whose keys but the last have weight at least 2. Settling: the number of messages not newer than what is known grows with every change |
| C111 | induction over the certificates: up to the first faulty one the loop goes on, its least value is attained; faults by transparency |
| C112 | randomness as the list of blocks drawn; induction for the loop; equal likelihood by the bijection of sequences that exchanges two secrets; waiting by counting |
| C113 | the revocations of the roots stay (C29); a key behind a root that has revoked it can only be next to last; without certificates no weight, without weight nothing is stored |
| C114 | invariants of calls by a set of keys (as C97); induction along a certificate: it never enters the set |
| C115 | effect of the added row on the first row of each key; certificates and candidates for the weight compared |
| C116 | relations of other keys are untouched (C97); a certificate that visits the key before its end is cut there, which makes it worth more |
| C117 | machine of `Spec/Machine.lean`: what an interrupted call leaves, and idempotence of collecting and updating; C116 for the weight of the issuer, C82 for `add` |
| C118 | as C95 (`import_addAll`), then one `revoke` after another: what is stored on the new node is the trusts of the certificates and revocations of the first node; certificates with fewer revocations and the same trusts (`Spec.Admissible.fewer`) |
| C119 | relation `Spec.Aged` between databases, kept by every step of a query and by SQL failures; C02 for certificates; `import_addAll` for adding again |
| C120 | C118 between two services: the records are conversions of what the library returned (inversion of successful calls), `insert_cert` and `revoke` pass on (C75), records are read back as what was written (C60) |
| C121 | the graph between the keys of the certificate only grows (`Spec.sustained`, over the steps of every call); certificates along the same keys exist in the larger graph (`Admissible.lift`); renewal by C82 |
| C122 | the texts are functions of the public key; hexadecimal digits are read back |
| C123 | SHA-256, SHA-512 and Ed25519 are written down as in FIPS 180-4 and RFC 8032; the kernel computes them for the file; then as C84 and C93 |
| C124 | invariant of the abstract machine (C107): every relation it keeps was handed over and accepted; by C41 its signature is accepted by the scheme, by C40 the signed bytes determine the statement |
| C125 | every run of the service is a sequence of library calls on the graph (`Spec.Acts`, from the refinement of C107), so that C121 carries over to the answers |
| C126 | the same transfer: the revocations listed are stored (C37), stay (C29), and all roots of a later state were set by the owner; then C113 |
| C127 | the same transfer, with C116 and C114 |
| C128 | the SQL interpreter of C101 on tables with arbitrary rows; a file with unreadable rows keeps to the contract of C102, with the surviving rows as its contents, except for writing over an unreadable row; then call by call as C102 |
| C129 | two runs of the reference machine of C99 side by side: the states correspond, each admissible certificate has exactly one counterpart, so weights are equal and lists correspond up to order; any storage by C102 |
| C130 | `Props/Check.lean`, `Spec/Check.lean`: `Proves` says what a certificate is meant to prove, in terms of what keys have said (`Spec/Speech.lean`). From `C51_verify_decides`, the binding of messages (C39, C40) and the schemes (C41). `C130_fails` for Secp256k1. |
| C131 | text of trusts, certificates, times and of the expiry error (`Model/DebugTrust`); a reader of times in the specification; injectivity by splitting at the first comma |
| C132 | a reader of JSON with fuel (`Model/Json`) against the grammar as a relation (`Spec/Json`): soundness by induction on fuel, completeness by induction on the derivation; records by lists of fields; the shipped texts piece by piece |
| C133 | SameContent: two reachable databases with the same relations and root factors are taken to the same state of C99's machine; `Op.refines` and `C99_determined` give equal answers step by step |
| C134 | Order: through C99's machine, the calls become updates of a map from pairs of keys to relations; their effect is characterised by the newest message of each pair (`Absorbs`), which depends on the set of messages only |
| C135 | Cost of each call: `Spec.Costs x db n a` (with n successful statements the call answers a, with a failure among them it reports the failure); the number is unique. By composing exact costs over the monad (`Executes.bind`). |
| C136 | Two services agree: `Spec.Took`, `Spec.TookRoot` (what a run has taken in, read off its events and records); by the reference machine of C107, whose state is determined by what was taken in (`Spec.World.Absorbs` of C134), and C107_determined. |
| C137 | From C02, C10, C13, C14, C111: each certificate starts with a root and ends with the key, so selecting by roots or by the key itself loses nothing; the greatest element is compared both ways. Through the service (C137_service): by C36 and C125 both answers are those of one database without failures. |
| C138 | C72 names the call that handed over each stored relation, C23 makes the pairs of the rows distinct; for one call, the pairs of the rows afterwards are among those before and those handed over (induction over the steps of a call). |
| C139 | Weight and distance: `Spec.Led db now k n` is an inductive definition of where trust leads, without paths. A shortest way has no circles (`way_of_led`: cut at a revisited key), so it is an admissible certificate if nobody on it has revoked anybody; conversely by induction along a certificate. The local rule follows from the best way to a neighbour. Through the service: roots and trusts come from the calls (C72, C125), and a trust that was taken in stays (`Took.stored` of C147). |
| C140 | Exact effect of an update: the snapshots before and after differ in one pair only (`stored_put`); `Spec.Cut` says which certificates a revocation invalidates, as a condition on positions of keys; the equivalence is proved for arbitrary snapshots that differ in this way (`Change.revoked_iff`, `trusted_new`, `trusted_old`). Through the service: the first question leaves the graph collected, which changes no answer at the same time. |
| C141 | Self-talk: the snapshots before and after agree off the diagonal (`AgreeOff`, an invariant of all calls of this kind); every certificate can be tidied up by dropping self-signed trusts behind the root (`shorten`, `tidy`), and tidy certificates use nothing on the diagonal but the root's trust. |
| C142 | Modelled: all of it. Specification: `Spec.Closed`, `Spec.Downstream`. Proof: later calls leave the live trusts in keys of S, the revocations of keys of S and the factors of the roots in S alone (step invariant over histories); by induction from the end of a certificate all its keys belong to S, hence certificates of members are the same (C02), and so are the weights (C10). |
| C143 | Modelled: all of it. Specification: runs of the service of C107 (`ServiceRun`), the library calls its calls stand for (`Made`). Proof: between two answers the file of the service is that of a graph that evolves by library calls (C125); that only members trust members, or who is no root, is read off the history (C72); then C142, C141 and, for different times, C17. |
| C144 | Modelled: all of it. Specification: `Spec.Closed` and `Spec.Downstream` of C142, `Spec.Live`; runs of the service of C107. Proof: the certificates at T of the later database are those at T of the present one (C142), and these are the present ones that last (C140); the weight is the best of them (C01). |
| C145 | Modelled: all of it (`str::lines` and `str::parse::<u64>` are modelled in Model/Text). Specification: Spec/CertText (`Lines`, `Numeral`, `Says`), grammars written without the functions of the model except the base 58 encoding. Proof: `lines` is the inverse of the grammar, which is total; decimal parsing by induction from the right; then case analysis of each step; lists by induction. |
| C146 | Modelled: all of it. Specification: Spec/Wire, which writes out the bytes without using the model's encoders (numbers by their base-256 value). Proof: the grammar has exactly one value for each item, that of the encoder; the decoders are characterised in C46 and C47. |
| C147 | compares the answers of two arbitrary reachable databases through C02 (which certificates there are) and the characterisation of the weight (C05): `Spec.Obstacle` lists what can stand against a chain of trusts that is a certificate elsewhere; the rest of the definition of a certificate does not depend on the database. For the service: a trust that was taken in stays stored as long as it is live and nothing else is submitted about the two keys (`Spec.Took.stored`), and revocations come from calls (C72). |
| C148 | From C125 (a run of the service is a sequence of library calls), C37 (what get_revocations returns), C72 (what is stored was submitted) and C76 (what a successful revoke leaves); a stored revocation is not collected and is replaced only by something newer (induction over `Later`). |
| C149 | From C148 (a successful revocation stays stored), C02 (which certificates are returned), C09 and C13 (what the -from calls return), lifted to a run of the service with C125. |
| C150 | `Spec.TakenChain` is stated on the calls and answers in the trace alone. A taken trust stays stored (induction over `Later`, `Later.keepsTrust`), a taken root stays a root (C76, C72), and a stored, live, unrevoked chain is found by the search (C02, C09) and handed out by the service (C125). |

Resource hypotheses. `u32` arithmetic on chain lengths overflows only if a chain has about 2^32 trusts. Theorems about weights in debug builds
assume `db.relations.length + 16 < 2^32` (a certificate visits each key once, so this bounds chain lengths); `Db.Bounded` says "release build,
or this bound".

No property is judged inexpressible. Cryptographic hardness (e.g. that signatures cannot be forged, or hashes
do not collide) is not expressible in this model; C33/C39/C40/C41 are stated about messages before hashing
and about what the verification primitive accepted, and C124 takes it as a hypothesis about the run (`Spec.Unforged`).
