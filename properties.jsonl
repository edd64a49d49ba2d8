{"id": "C01", "title": "Returned certificates are rooted, linked chains of stored trusts", "statement": "Every certificate returned by get_all_certs(target, now) has at least two trusts; its first trust is self-signed by a key registered with set_root; its last trust is issued for target; and every trust in it is currently stored as issued by the key the preceding trust was issued for.", "quantifier": "every stored graph (any number of keys, trusts, revocations, roots, cycles), every target key, every time", "why_tests_cant": "graphs are unbounded; tests try a handful of chains of length 5", "anchors": ["trust-graph/src/trust_graph.rs::get_all_certs", "trust-graph/src/trust_graph.rs::bf_search_paths"]}
{"id": "C02", "title": "get_all_certs is complete and returns each path exactly once", "statement": "get_all_certs(target, now) returns precisely the admissible stored paths from a root to target (an explicitly specified, search-independent set): none is missing, none is extra, none is repeated.", "quantifier": "every stored graph (any number of keys, trusts, revocations, roots, cycles), every target key, every time", "why_tests_cant": "completeness over all graphs and the absence of duplicates need an argument about the breadth-first search, not samples", "anchors": ["trust-graph/src/trust_graph.rs::bf_search_paths", "trust-graph/src/chain.rs::can_be_extended_by"]}
{"id": "C03", "title": "Certificates are returned shortest first", "statement": "The certificates returned by get_all_certs are ordered by non-decreasing chain length, whatever order the database yields rows in.", "quantifier": "every stored graph (any number of keys, trusts, revocations, roots, cycles), every target key, every time; every row order", "why_tests_cant": "depends on queue discipline for all graphs and all row orders", "anchors": ["trust-graph/src/trust_graph.rs::bf_search_paths"]}
{"id": "C04", "title": "Searching terminates and never panics on any graph", "statement": "get_all_certs, weight and their _from variants always return on every stored graph, including graphs with trust cycles and self-signed trusts in the middle, and never panic.", "quantifier": "every stored graph (any number of keys, trusts, revocations, roots, cycles), every target key, every time; in release builds without bound, in debug builds (which trap on u32 overflow) for graphs of fewer than 2^32 - 16 relations", "why_tests_cant": "non-termination cannot be observed by a test; cyclic graphs are unbounded", "anchors": ["trust-graph/src/trust_graph.rs::bf_search_paths", "trust-graph/src/chain.rs::can_be_extended_by"]}
{"id": "C05", "title": "A certificate never revisits a key", "statement": "In a returned certificate a key can occur twice only as the two consecutive ends of a self-signed trust; hence the length is at most twice the number of distinct keys.", "quantifier": "every stored graph (any number of keys, trusts, revocations, roots, cycles), every target key, every time", "why_tests_cant": "all cyclic graphs", "anchors": ["trust-graph/src/trust_graph.rs::bf_search_paths", "trust-graph/src/chain.rs::can_be_extended_by"]}
{"id": "C06", "title": "Someone who revoked the target is on none of its certificates", "statement": "If key A's current relation towards target is a revocation, no certificate returned for target contains A as the issuer of any of its trusts, directly or indirectly.", "quantifier": "every stored graph (any number of keys, trusts, revocations, roots, cycles), every target key, every time", "why_tests_cant": "all chains, all positions of the revoker", "anchors": ["trust-graph/src/trust_graph.rs::revoke", "trust-graph/src/trust_graph.rs::bf_search_paths", "trust-graph/src/chain.rs::add_revocations"]}
{"id": "C07", "title": "A revocation anywhere along a chain invalidates the chain", "statement": "(README) If A's current relation towards C is a revocation, no returned certificate contains A before C, wherever C is in the chain.", "quantifier": "every stored graph (any number of keys, trusts, revocations, roots, cycles), every target key, every time", "why_tests_cant": "needs every position of A and C; the tests only revoke the final target", "anchors": ["trust-graph/src/trust_graph.rs::revoke", "trust-graph/src/trust_graph.rs::bf_search_paths", "README.md"]}
{"id": "C08", "title": "Returned certificates pass Certificate::verify", "statement": "After any history, every certificate returned by get_all_certs(target, now) is accepted by Certificate::verify with the registered roots as trusted roots at the same time now.", "quantifier": "every finite history of API calls with any arguments, starting from the empty database, under any schedule of SQL failures; every target and time", "why_tests_cant": "relates storage, search, GC and signatures over all histories", "anchors": ["trust-graph/src/trust_graph.rs::get_all_certs", "trust-graph/src/certificate.rs::verify"]}
{"id": "C09", "title": "The _from queries select exactly the certificates that contain the issuer", "statement": "get_all_certs_from(target, issuer, now) returns exactly those certificates of get_all_certs(target, now), in the same order, in which some trust was issued by issuer.", "quantifier": "every stored graph (any number of keys, trusts, revocations, roots, cycles), every target key, every time; every issuer", "why_tests_cant": "all graphs", "anchors": ["trust-graph/src/trust_graph.rs::get_all_certs_from", "README.md"]}
{"id": "C10", "title": "Weight is the best of root weight and certificate weights", "statement": "weight(pk, now) is the maximum of: 2^min(16,max_chain_len) if pk is a registered root, and, over all certificates of pk, 2^(16-f) where f is the factor of the certificate's root plus the number of trusts after the root trust (f capped at 16); it is 0 if neither exists.", "quantifier": "every stored graph (any number of keys, trusts, revocations, roots, cycles), every target key, every time; graphs of fewer than 2^32 - 16 relations (a chain length is a u32)", "why_tests_cant": "a maximum over an unbounded set of paths", "anchors": ["trust-graph/src/trust_graph.rs::weight", "trust-graph/src/trust_graph.rs::certificates_weight_factor", "trust-graph/src/trust_graph.rs::get_weight_from_factor"]}
{"id": "C11", "title": "Weight is zero or a power of two, and zero exactly for untrusted keys", "statement": "weight is 0 or 2^k with k ≤ 16, and is 0 iff the key is not a registered root and has no certificate.", "quantifier": "every stored graph (any number of keys, trusts, revocations, roots, cycles), every target key, every time; graphs of fewer than 2^32 - 16 relations (a chain length is a u32)", "why_tests_cant": "all graphs", "anchors": ["trust-graph/src/trust_graph.rs::weight", "README.md"]}
{"id": "C12", "title": "max_chain_len limits the length of useful chains", "statement": "Each hop from the root halves the weight, and a chain with more than max_chain_len trusts after the root trust confers no weight.", "quantifier": "every stored graph (any number of keys, trusts, revocations, roots, cycles), every target key, every time; every max_chain_len; graphs of fewer than 2^32 - 16 relations (a chain length is a u32)", "why_tests_cant": "long chains arise only through particular histories (e.g. loss of a shortcut)", "anchors": ["trust-graph/src/trust_graph.rs::set_root", "trust-graph/src/trust_graph.rs::get_weight_from_factor", "aqua/trust-graph-api.aqua::set_root"]}
{"id": "C13", "title": "weight_from never exceeds weight", "statement": "weight_from(pk, issuer, now) ≤ weight(pk, now), and it equals the maximum weight over the certificates that contain issuer (0 if there are none).", "quantifier": "every stored graph (any number of keys, trusts, revocations, roots, cycles), every target key, every time; every issuer; graphs of fewer than 2^32 - 16 relations (a chain length is a u32)", "why_tests_cant": "all graphs", "anchors": ["trust-graph/src/trust_graph.rs::weight_from"]}
{"id": "C14", "title": "Weight arithmetic never overflows and queries on a healthy database never fail", "statement": "On every database reachable through the API, with SQL calls succeeding, weight, weight_from, get_all_certs and get_all_certs_from return Ok: no u32 overflow, no NoRoot, no CertificateLengthError, no failed debug assertion.", "quantifier": "every finite history of API calls with any arguments, starting from the empty database, under any schedule of SQL failures; in release builds without bound, in debug builds (which trap on u32 overflow) for graphs of fewer than 2^32 - 16 relations", "why_tests_cant": "all reachable databases", "anchors": ["trust-graph/src/trust_graph.rs::certificates_weight_factor", "trust-graph/src/trust_graph.rs::get_weight_factor"]}
{"id": "C15", "title": "Adding a trust never lowers a weight", "statement": "If add_trust(t, by, now) is called with t expiring after now, then no key's weight at time now decreases and no certificate's path disappears.", "quantifier": "every stored graph (any number of keys, trusts, revocations, roots, cycles), every target key, every time; graphs of fewer than 2^32 - 16 relations (a chain length is a u32)", "why_tests_cant": "global effect of a local update on every key", "anchors": ["trust-graph/src/trust_graph.rs::add_trust", "trust-graph/src/trust_graph.rs::weight"]}
{"id": "C16", "title": "Revoking never raises a weight", "statement": "revoke(r) never raises the weight of any key, and after it every certificate returned for any key was already returned before.", "quantifier": "every stored graph (any number of keys, trusts, revocations, roots, cycles), every target key, every time; graphs of fewer than 2^32 - 16 relations (a chain length is a u32)", "why_tests_cant": "global effect of a local update on every key", "anchors": ["trust-graph/src/trust_graph.rs::revoke", "trust-graph/src/trust_graph.rs::weight"]}
{"id": "C17", "title": "The passage of time never raises a weight", "statement": "With no API update in between, for t1 ≤ t2 the certificates returned at t2 are a subset of those at t1 and no weight increases.", "quantifier": "every stored graph (any number of keys, trusts, revocations, roots, cycles), every target key, every time; all pairs of times; graphs of fewer than 2^32 - 16 relations (a chain length is a u32)", "why_tests_cant": "all times and graphs", "anchors": ["trust-graph/src/trust_graph.rs::get_all_certs", "service/src/storage_impl.rs::remove_expired"]}
{"id": "C18", "title": "add_trust refuses expired or wrongly signed trusts without any effect", "statement": "If the trust is expired at cur_time or its signature does not verify under the issuer's key, add_trust returns an error and the database is unchanged.", "quantifier": "every trust, issuer, time and database", "why_tests_cant": "all inputs", "anchors": ["trust-graph/src/trust_graph.rs::add_trust", "trust-graph/src/trust.rs::verify"]}
{"id": "C19", "title": "Keys without weight cannot inject trusts", "statement": "If the issuer's weight at cur_time is 0 (or is 1 and the trust is not self-signed), add_trust returns Ok(0) and stores nothing.", "quantifier": "every database, trust, issuer and time", "why_tests_cant": "all graphs", "anchors": ["trust-graph/src/trust_graph.rs::add_trust", "trust-graph/src/trust_graph.rs::get_next_weight"]}
{"id": "C20", "title": "The weight returned by add_trust", "statement": "When add_trust succeeds it returns the issuer's weight if the trust is self-signed and half of it (rounded down) otherwise, and the trust is handed to storage iff that number is positive.", "quantifier": "every database, trust, issuer and time", "why_tests_cant": "all graphs", "anchors": ["trust-graph/src/trust_graph.rs::add_trust", "trust-graph/src/trust_graph.rs::get_next_weight"]}
{"id": "C21", "title": "The weight returned by add_trust is the weight the recipient then has", "statement": "After add_trust returns Ok(w) with w > 0, weight(issued_for, cur_time) ≥ w.", "quantifier": "every database, trust, issuer and time; graphs of fewer than 2^32 - 16 relations (a chain length is a u32)", "why_tests_cant": "depends on the whole graph", "anchors": ["trust-graph/src/trust_graph.rs::add_trust", "trust-graph/src/trust_graph.rs::weight"]}
{"id": "C22", "title": "add(certificate) is the sequence of its add_trust calls, and fails atomically", "statement": "add(cert, now) adds the trusts from the root outwards, each issued by the previous key; an empty chain is EmptyChain; it stops at the first failing trust; a failed add leaves the graph as it was.", "quantifier": "every certificate, database and time", "why_tests_cant": "failure at every position of the chain", "anchors": ["trust-graph/src/trust_graph.rs::add"]}
{"id": "C23", "title": "At most one current relation per ordered pair of keys", "statement": "At any point of any history there is at most one stored relation (trust or revocation) per (issued_for, issued_by).", "quantifier": "every finite history of API calls with any arguments, starting from the empty database, under any schedule of SQL failures", "why_tests_cant": "all histories and crash points", "anchors": ["service/src/storage_impl.rs::create_tables", "service/src/storage_impl.rs::insert"]}
{"id": "C24", "title": "The latest relation wins", "statement": "Storing trusts and revocations behaves like a map from (issued_for, issued_by) to the relation with the greatest issue time stored so far; on equal times the earlier stored one stays.", "quantifier": "every sequence of relation updates (trusts and revocations between any keys) with whole-second times (all that is signed and stored), submitted to any healthy database, empty or not", "why_tests_cant": "unbounded sequences", "anchors": ["service/src/storage_impl.rs::update_relation", "service/src/storage_impl.rs::get_relation"]}
{"id": "C25", "title": "The order of updates does not matter", "statement": "Two permutations of the same relation updates with pairwise different issue times for the same pair lead to the same stored relations.", "quantifier": "every list of updates and every permutation of it with whole-second times (all that is signed and stored), submitted to any healthy database, empty or not, at any times", "why_tests_cant": "factorially many orders of unbounded lists", "anchors": ["service/src/storage_impl.rs::update_relation"]}
{"id": "C26", "title": "Updates are idempotent", "statement": "Storing the same relation again changes nothing, at once or after any later updates.", "quantifier": "every history and relation with whole-second times (all that is signed and stored)", "why_tests_cant": "all histories", "anchors": ["service/src/storage_impl.rs::update_relation"]}
{"id": "C27", "title": "A stale trust never overrides a revocation", "statement": "While a revocation by A of B is stored, a trust from A to B issued at or before the revocation time changes nothing.", "quantifier": "every database, revocation and trust", "why_tests_cant": "all timestamps incl. ties", "anchors": ["service/src/storage_impl.rs::update_relation", "trust-graph/src/trust_graph.rs::add_trust"]}
{"id": "C28", "title": "Garbage collection removes exactly the expired trusts", "statement": "remove_expired(now) deletes the trusts whose expiry is not after now and nothing else: revocations never expire, roots are untouched.", "quantifier": "every database and every time", "why_tests_cant": "all databases", "anchors": ["service/src/storage_impl.rs::remove_expired", "trust-graph/src/trust_relation.rs::expires_at"]}
{"id": "C29", "title": "A revoked trust cannot be replayed", "statement": "Once A has revoked B at time r, no trust from A to B issued at or before r is ever stored again.", "quantifier": "every finite history of API calls with any arguments, starting from the empty database, under any schedule of SQL failures", "why_tests_cant": "requires all interleavings of updates and garbage collection", "anchors": ["service/src/storage_impl.rs::update_relation", "service/src/storage_impl.rs::remove_expired"]}
{"id": "C30", "title": "A trust counts until it expires", "statement": "A trust that verifies at time now is not garbage collected by queries at time now, and vice versa an expired one is never used.", "quantifier": "every trust and time", "why_tests_cant": "boundary instants", "anchors": ["service/src/storage_impl.rs::remove_expired", "trust-graph/src/trust.rs::verify"]}
{"id": "C31", "title": "Far-future expiry dates are honoured", "statement": "A trust whose expiry lies after now is never garbage collected at now, for every 64-bit expiry value (issue_root uses u64::MAX).", "quantifier": "every 64-bit expiry and current time", "why_tests_cant": "2^128 combinations, sign boundary", "anchors": ["service/src/storage_impl.rs::insert", "service/src/storage_impl.rs::remove_expired", "trust-graph/src/certificate.rs::issue_root"]}
{"id": "C32", "title": "Database rows round-trip", "statement": "Reading back a stored trust or revocation yields exactly what was stored (whole seconds), for every key, time and signature; no row written by the API is ever unreadable.", "quantifier": "every relation", "why_tests_cant": "all 64-bit times (sign conversion), all keys and signatures", "anchors": ["service/src/storage_impl.rs::insert", "service/src/storage_impl.rs::parse_relation", "service/src/storage_impl.rs::get_relations"]}
{"id": "C33", "title": "Everything stored was verified", "statement": "At any point of any history every stored trust and revocation carries a signature that verifies under the key recorded as its issuer.", "quantifier": "every finite history of API calls with any arguments, starting from the empty database, under any schedule of SQL failures", "why_tests_cant": "all histories and crash points", "anchors": ["trust-graph/src/trust_graph.rs::add_trust", "trust-graph/src/trust_graph.rs::revoke", "service/src/storage_impl.rs::insert"]}
{"id": "C34", "title": "Roots: only set_root changes them, and the latest call counts", "statement": "No call other than set_root changes any root or its weight; a root is never lost; after set_root(pk, n) the weight of pk is at least 2^min(16,n) and its factor is the one just set.", "quantifier": "every finite history of API calls with any arguments, starting from the empty database, under any schedule of SQL failures; graphs of fewer than 2^32 - 16 relations (a chain length is a u32)", "why_tests_cant": "all histories", "anchors": ["trust-graph/src/trust_graph.rs::set_root", "service/src/storage_impl.rs::set_root_weight_factor", "service/src/storage_impl.rs::get_root_weight_factor"]}
{"id": "C35", "title": "SQL failures and crashes never corrupt the graph", "statement": "If any SQL statement fails or the process dies at any statement, the call returns an error (never a wrong answer) and the stored relations are those before the call, possibly with expired trusts removed and, for add(cert), with the trusts of a prefix of the chain applied; all invariants still hold.", "quantifier": "every API call, every failure point, every database", "why_tests_cant": "every crash point", "anchors": ["trust-graph/src/trust_graph.rs", "service/src/storage_impl.rs"]}
{"id": "C36", "title": "Queries do not disturb later queries", "statement": "Calling any queries at times not later than now does not change what any query at now returns.", "quantifier": "every database, every list of queries with times ≤ now", "why_tests_cant": "all query sequences", "anchors": ["trust-graph/src/trust_graph.rs::get_all_certs", "service/src/storage_impl.rs::remove_expired"]}
{"id": "C37", "title": "get_revocations returns exactly the revocations in force", "statement": "get_revocations(pk) / export_revocations returns exactly the stored revocations whose subject is pk, each once.", "quantifier": "every database and key", "why_tests_cant": "all databases", "anchors": ["trust-graph/src/trust_graph.rs::get_revocations", "service/src/service_api.rs::export_revocations"]}
{"id": "C38", "title": "Trust::verify decides expiry and signature", "statement": "Trust::verify(t, by, now) is Ok iff now is not after t.expires_at and t.signature is valid for t's message under key by; expiry is reported first.", "quantifier": "every trust, key, time", "why_tests_cant": "all inputs", "anchors": ["trust-graph/src/trust.rs::verify"]}
{"id": "C39", "title": "The signed message binds every field", "statement": "Two trusts with the same pre-hash message have the same issued_for and the same expiry and issue times (whole seconds); likewise for revocations (pk, revoked_at).", "quantifier": "every pair of trusts / revocations with keys of every type", "why_tests_cant": "pairs of unbounded inputs", "anchors": ["trust-graph/src/trust.rs::signature_bytes", "trust-graph/src/revoke.rs::signature_bytes"]}
{"id": "C40", "title": "A trust signature can never be replayed as a revocation", "statement": "No trust message equals a revocation message, whatever the keys and times.", "quantifier": "every trust, every revocation, every key type", "why_tests_cant": "pairs of unbounded inputs", "anchors": ["trust-graph/src/trust.rs::signature_bytes", "trust-graph/src/revoke.rs::signature_bytes"]}
{"id": "C41", "title": "Signatures are checked for every key type", "statement": "PublicKey::verify(msg, sig) is Ok only if the signature scheme of the key accepts sig for msg.", "quantifier": "every key of every type, message and signature", "why_tests_cant": "all inputs", "anchors": ["keypair/src/public_key.rs::verify", "keypair/src/secp256k1.rs::verify_hashed"]}
{"id": "C42", "title": "What is created verifies", "statement": "Trust::create and Revocation::create produce objects that verify under the creator's public key (trusts: until they expire), for each key type. Signing itself returns for every pair and message, with an error only if an RSA key cannot sign the message.", "quantifier": "every key pair, subject and times", "why_tests_cant": "all inputs", "anchors": ["trust-graph/src/trust.rs::create", "trust-graph/src/revoke.rs::create"]}
{"id": "C43", "title": "The declared signature type does not affect verification", "statement": "Verification depends only on the key and the raw signature bytes, so relabelling a signature (as issue_trust does, using the recipient's key format) never changes the outcome.", "quantifier": "every key, message, signature bytes and label", "why_tests_cant": "all inputs", "anchors": ["keypair/src/public_key.rs::verify", "service/src/service_api.rs::issue_trust"]}
{"id": "C44", "title": "PublicKey encode/decode round-trip", "statement": "PublicKey::decode(pk.encode()) = pk for every key; encodings of different keys differ; decoding accepts only encodings of the decoded key.", "quantifier": "every key of every type", "why_tests_cant": "all keys", "anchors": ["keypair/src/public_key.rs::encode", "keypair/src/public_key.rs::decode"]}
{"id": "C45", "title": "Signature encode/decode round-trip", "statement": "Signature::decode(s.encode()) = s and decode is injective on valid input.", "quantifier": "every signature", "why_tests_cant": "all signatures", "anchors": ["keypair/src/signature.rs::encode", "keypair/src/signature.rs::decode"]}
{"id": "C46", "title": "Trust binary round-trip", "statement": "Trust::decode(t.encode()) = t for every trust with whole-second times.", "quantifier": "every trust with keys and signatures of every type", "why_tests_cant": "all trusts; length bytes", "anchors": ["trust-graph/src/trust.rs::encode", "trust-graph/src/trust.rs::decode"]}
{"id": "C47", "title": "Certificate binary round-trip", "statement": "Certificate::decode(c.encode()) = c for every certificate with at least two trusts.", "quantifier": "every certificate", "why_tests_cant": "all lengths", "anchors": ["trust-graph/src/certificate.rs::encode", "trust-graph/src/certificate.rs::decode"]}
{"id": "C48", "title": "Certificate text round-trip", "statement": "Certificate::from_str(c.to_string()) = c for every certificate with whole-second times; so do the serde helpers for lists of certificates.", "quantifier": "every certificate", "why_tests_cant": "all certificates", "anchors": ["trust-graph/src/certificate.rs::fmt", "trust-graph/src/certificate.rs::from_str", "trust-graph/src/certificate_serde.rs"]}
{"id": "C49", "title": "Decoders never panic", "statement": "Trust::decode, Certificate::decode, PublicKey::decode, Signature::decode and Certificate::from_str return an error, not a panic, on malformed input.", "quantifier": "every byte string / text", "why_tests_cant": "all byte strings", "anchors": ["trust-graph/src/trust.rs::decode", "trust-graph/src/certificate.rs::decode", "trust-graph/src/certificate.rs::from_str", "keypair/src/public_key.rs::decode", "keypair/src/signature.rs::decode"]}
{"id": "C50", "title": "Base58 is a faithful key representation", "statement": "Base58 decoding inverts encoding for every byte string, so different keys have different database texts.", "quantifier": "every byte string", "why_tests_cant": "all byte strings", "anchors": ["trust-graph/src/public_key_hashable.rs::fmt", "keypair/src/public_key.rs::from_base58"]}
{"id": "C51", "title": "Certificate::verify decides chain validity", "statement": "Certificate::verify(c, roots, now) is Ok iff c is non-empty, its first trust verifies under its own key, that key is in roots, and every later trust verifies under the key of its predecessor, all at time now.", "quantifier": "every certificate, root list and time", "why_tests_cant": "all lengths and failure positions", "anchors": ["trust-graph/src/certificate.rs::verify"]}
{"id": "C52", "title": "issue_root and issue produce verifying certificates", "statement": "issue_root yields a certificate that verifies with its root trusted while unexpired; issue, when it succeeds, yields the prefix up to the issuer's last trust plus the new trust, and the result verifies while the new trust is unexpired; issue fails if the dates are inverted (ExpirationError), if the input does not verify (with the error of its verification) or if the issuer is not in the chain (KeyInCertificateError).", "quantifier": "every key pair, certificate and times", "why_tests_cant": "all inputs", "anchors": ["trust-graph/src/certificate.rs::issue_root", "trust-graph/src/certificate.rs::issue"]}
{"id": "C53", "title": "issue_with_trust produces verifying certificates", "statement": "If issue_with_trust(issued_by, trust, cert, now) succeeds the result verifies at now with the same root trusted. It refuses, in this order: dates the wrong way round (ExpirationError), a certificate that does not verify (with the error of its verification), and an issuer that is not in the chain (KeyInCertificateError).", "quantifier": "every key, trust, certificate, time", "why_tests_cant": "all inputs", "anchors": ["trust-graph/src/certificate.rs::issue_with_trust"]}
{"id": "C54", "title": "new_from_root_trust is sound", "statement": "If new_from_root_trust succeeds the certificate it returns verifies at that time with that root trusted; it succeeds exactly then. Otherwise it gives MalformedRoot with the error of the root trust, or, if the root trust is good, VerificationError(1) with the error of the other.", "quantifier": "every pair of trusts and time", "why_tests_cant": "all inputs", "anchors": ["trust-graph/src/certificate.rs::new_from_root_trust"]}
{"id": "C55", "title": "Only the service owner can set roots", "statement": "The service call set_root changes the database only if the caller's init_peer_id equals the service creator; otherwise it fails and changes nothing.", "quantifier": "every call context, argument and database", "why_tests_cant": "all contexts", "anchors": ["service/src/service_api.rs::set_root"]}
{"id": "C56", "title": "Queries and updates accept only host-provided timestamps", "statement": "get_all_certs(_from), get_host_certs(_from), get_weight, verify_trust, add_trust and revoke succeed (and touch the database) only if the tetraplet of their timestamp argument says it came from peer.timestamp_sec of the host.", "quantifier": "every call context, argument and database", "why_tests_cant": "all contexts", "anchors": ["service/src/misc.rs::check_timestamp_tetraplets", "service/src/service_api.rs"]}
{"id": "C57", "title": "get_weight_from authenticates its timestamp", "statement": "get_weight_from succeeds iff (arguments being well-formed) the tetraplet of its timestamp argument is the host's peer.timestamp_sec.", "quantifier": "every call context and argument", "why_tests_cant": "all contexts; no test covers this call", "anchors": ["service/src/service_api.rs::get_weight_from"]}
{"id": "C58", "title": "Only trusted time can expire trusts", "statement": "No call whose timestamp was not provided by the host removes a trust that has not expired at the host's time.", "quantifier": "every call, caller and database", "why_tests_cant": "adversarial calls", "anchors": ["service/src/service_api.rs::insert_cert", "service/src/service_api.rs::insert_cert_raw", "service/src/storage_impl.rs::remove_expired"]}
{"id": "C59", "title": "Trusts and revocations from the future are refused", "statement": "The service calls add_trust and revoke fail without any effect if the trust's issued_at / revocation's revoked_at is after the given timestamp.", "quantifier": "every call and database", "why_tests_cant": "all inputs", "anchors": ["service/src/service_api.rs::add_trust", "service/src/service_api.rs::revoke"]}
{"id": "C60", "title": "DTO conversions round-trip", "statement": "Converting a trust, revocation or certificate to its service DTO and back yields the same object (whole seconds), for every key type available to the service.", "quantifier": "every trust, revocation, certificate", "why_tests_cant": "all inputs", "anchors": ["service/src/dto.rs"]}
{"id": "C61", "title": "The issue/sign/add flow works for all key types", "statement": "For any issuer and recipient: signing get_trust_bytes with the issuer's key and passing the result through issue_trust yields a trust that verify_trust accepts for that issuer until it expires; likewise get_revocation_bytes / issue_revocation / revoke.", "quantifier": "every issuer key pair, recipient, times", "why_tests_cant": "all key type combinations", "anchors": ["service/src/service_api.rs::get_trust_bytes", "service/src/service_api.rs::issue_trust", "service/src/service_api.rs::verify_trust", "service/src/service_api.rs::issue_revocation", "service/src/service_api.rs::revoke"]}
{"id": "C62", "title": "Failed service calls report failure with neutral payloads", "statement": "In every result record success is true iff the call succeeded; on failure weight is 0, lists are empty, DTOs are default and the error is set; on success the error is empty.", "quantifier": "every outcome of every call", "why_tests_cant": "all outcomes", "anchors": ["service/src/results.rs"]}
{"id": "C63", "title": "Peer ids identify keys", "statement": "For Ed25519 and Secp256k1 keys the textual peer id converts back to the same key, and different keys have different peer ids.", "quantifier": "every key", "why_tests_cant": "all keys", "anchors": ["keypair/src/public_key.rs::to_peer_id", "service/src/misc.rs::extract_public_key"]}
{"id": "C64", "title": "get_host_certs is get_all_certs for the host", "statement": "get_host_certs / get_host_certs_from return what get_all_certs / get_all_certs_from return for the host's peer id.", "quantifier": "every call context and database", "why_tests_cant": "all contexts", "anchors": ["service/src/service_api.rs::get_host_certs", "service/src/service_api.rs::get_host_certs_from"]}
{"id": "C65", "title": "isFluencePeer answers true exactly for labelled peers", "statement": "isFluencePeer on a node returns true iff the node has a certificate of exactly three trusts: Fluence root, label key, node.", "quantifier": "every database and host", "why_tests_cant": "all databases", "anchors": ["aqua/labelling.aqua::isFluencePeer", "service/src/service_api.rs::get_host_certs_from"]}
{"id": "C66", "title": "Hash sets of keys behave like sets", "statement": "Equal keys hash equally and the hashed bytes determine the key.", "quantifier": "every pair of keys", "why_tests_cant": "all keys", "anchors": ["trust-graph/src/public_key_hashable.rs::hash"]}
{"id": "C67", "title": "KeyPair byte and text conversions", "statement": "from_vec(to_vec(kp), format) and from_secret_key(secret(kp), format) recover the key pair; KeyFormat survives its byte and string forms. Nothing else is read as a key pair, a secret key or a format, and whatever is not read is refused with an error.", "quantifier": "every key pair and format, every byte string and text", "why_tests_cant": "all keys", "anchors": ["keypair/src/key_pair.rs"]}
{"id": "C68", "title": "RSA public keys survive X.509 encoding", "statement": "decode_x509(encode_x509(pk)) = pk for every RSA public key byte string, of any length. What decode_x509 accepts is a SubjectPublicKeyInfo (RFC 5280) whose algorithm is rsaEncryption, and it returns the key bytes inside.", "quantifier": "every RSA key, every byte string", "why_tests_cant": "length encodings", "anchors": ["keypair/src/rsa.rs::encode_x509", "keypair/src/rsa.rs::decode_x509", "keypair/src/rsa.rs::from_der_object"]}
{"id": "C69", "title": "Garbage collection composes", "statement": "Collecting at t1 and then t2 equals collecting once at the later time; collection commutes and is idempotent.", "quantifier": "every database and pair of times", "why_tests_cant": "all databases", "anchors": ["service/src/storage_impl.rs::remove_expired"]}
{"id": "C70", "title": "Unrelated keys are not affected", "statement": "Updating the relation between A and B changes the certificates of target only through paths that contain the edge A→B or are cut by A's revocation of B: certificates not containing both A and B are the same before and after, at any time not before that of the update.", "quantifier": "every stored graph (any number of keys, trusts, revocations, roots, cycles), every target key, every time", "why_tests_cant": "global effect of local updates", "anchors": ["trust-graph/src/trust_graph.rs::add_trust", "trust-graph/src/trust_graph.rs::revoke"]}
{"id": "C71", "title": "A revocation is overridden only by a trust signed as issued after it", "statement": "If a revocation of B by A is stored and add_trust makes the database hold a trust from A to B instead, then the issue time signed by A (the signature covers whole seconds) is after the revocation.", "quantifier": "every reachable database, revocation, trust and time", "why_tests_cant": "all databases and all sub-second times a caller may attach to a signed trust", "anchors": ["trust-graph/src/trust.rs::signature_bytes", "trust-graph/src/trust.rs::signature_bytes", "service/src/storage_impl.rs::update_relation"]}
{"id": "C72", "title": "Everything stored was handed over with a valid signature", "statement": "Every stored trust or revocation was an argument of an earlier call (add_trust, add, revoke), carried a valid signature of the key that it names as issuer, and is stored with its times cut to whole seconds; every root was registered by an earlier set_root. So nobody can make the graph contain a relation issued by a key that signed none.", "quantifier": "every history of calls, with SQL failures at any moment", "why_tests_cant": "all histories and crash points", "anchors": ["trust-graph/src/trust_graph.rs::add_trust", "trust-graph/src/trust_graph.rs::revoke", "service/src/storage_impl.rs::insert"]}
{"id": "C73", "title": "Hashable keys survive serialization", "statement": "A PublicKeyHashable written with serde and read back is the same key, in every serde data format.", "quantifier": "every key and every serde format", "why_tests_cant": "all keys and formats", "anchors": ["trust-graph/src/public_key_hashable.rs::serialize", "trust-graph/src/public_key_hashable.rs::deserialize"]}
{"id": "C74", "title": "Service calls never trap", "statement": "Every exported service call returns a result record: no argument, call context, stored graph or failing SQL statement makes it panic or loop.", "quantifier": "every call, argument, call context and reachable database, with SQL failures at any moment", "why_tests_cant": "all inputs", "anchors": ["service/src/service_api.rs", "service/src/misc.rs::with_tg"]}
{"id": "C75", "title": "The service answers what the library answers", "statement": "With a timestamp from the clock of the host, each service call does what the library call of the same name does with the keys, trusts, revocations and certificates that its arguments denote, at this time: the same effect on the database, the same answer converted to records, or a failed record with the error of the library. For get_all_certs: the records, read back, are exactly the admissible certificates of the peer, each once, shortest first.", "quantifier": "every call context, peer, trust, revocation, certificate, time and database", "why_tests_cant": "all arguments and graphs; the composition of parsing, checks, library and conversion", "anchors": ["service/src/service_api.rs", "service/src/dto.rs", "service/src/misc.rs"]}
{"id": "C76", "title": "An update that reports success has taken effect", "statement": "After revoke has returned Ok, no trust of the revoker in the revoked key issued up to the time of the revocation is stored any more. After add_trust has returned a positive weight, the trust is stored or the pair has a relation dated at or after it, and no older revocation of the pair is left.", "quantifier": "every reachable database, revocation and trust", "why_tests_cant": "all histories and all orders of the dates", "anchors": ["trust-graph/src/trust_graph.rs::revoke", "trust-graph/src/trust_graph.rs::add_trust", "service/src/storage_impl.rs::update_relation"]}
{"id": "C77", "title": "The Aqua queries answer what the library answers", "statement": "get_weight, get_all_certs, get_all_certs_from, get_host_certs, get_host_certs_from, verify_trust and insert_cert of the Aqua API answer what the library answers at the time of the clock of the node, wherever their other arguments come from.", "quantifier": "every node, argument, origin of the arguments and database", "why_tests_cant": "all origins of the arguments", "anchors": ["aqua/trust-graph-api.aqua", "service/src/service_api.rs"]}
{"id": "C78", "title": "The Aqua function get_weight_from answers weight_from", "statement": "get_weight_from of the Aqua API answers the weight of the peer through the issuer at the time of the clock of the node.", "quantifier": "every node, peer, issuer, origin of the arguments and database", "why_tests_cant": "all origins of the arguments", "anchors": ["aqua/trust-graph-api.aqua::get_weight_from", "service/src/service_api.rs::get_weight_from"]}
{"id": "C79", "title": "The Aqua function add_trust", "statement": "With a signature service that signs with the key of the issuer, add_trust makes a trust dated by the clock of the relay that verifies until it expires, and imports it on the node. If it reports no error, the node stores a trust of the issuer in the peer; if the signature service or the import fails, the error is reported and the node is unchanged. Issuing only reads the database of the relay.", "quantifier": "every relay, node, their clocks and databases, issuer, recipient and expiry time", "why_tests_cant": "all clocks and graphs", "anchors": ["aqua/trust-graph-api.aqua::add_trust", "aqua/trust-graph-api.aqua::issue_trust", "aqua/trust-graph-api.aqua::import_trust"]}
{"id": "C80", "title": "The Aqua function add_root_trust", "statement": "If add_root_trust reports no error, the caller is the creator of the service, the peer is a root of the node, and the node stores its self-signed relation, dated by the clock of the relay or later. If it reports an error, the node is unchanged.", "quantifier": "every relay, node, their clocks and databases, peer, maximal chain length and expiry time", "why_tests_cant": "all clocks and graphs", "anchors": ["aqua/trust-graph-api.aqua::add_root_trust", "service/src/service_api.rs::set_root"]}
{"id": "C81", "title": "The Aqua function revoke", "statement": "With a signature service that signs with the key of the revoker, revoke makes a valid revocation dated by the clock of the relay and imports it on the node. If it reports no error, the node stores no trust of the revoker in the peer issued up to that time.", "quantifier": "every relay, node, their clocks and databases, revoker and revoked peer", "why_tests_cant": "all clocks and graphs", "anchors": ["aqua/trust-graph-api.aqua::revoke", "aqua/trust-graph-api.aqua::issue_revocation", "aqua/trust-graph-api.aqua::import_revocation"]}
{"id": "C82", "title": "Importing a certificate puts it in force", "statement": "If every trust of a certificate verifies and is live, the certificate repeats no key, its root is registered with a max_chain_len of at least the number of trusts after the root trust, no key on it has revoked a later non-adjacent one, and nothing stored between its adjacent keys is newer, then add succeeds; afterwards get_all_certs of its last key returns it at any time its trusts live and its weight counts; exactly its trusts are added. Several such certificates that agree on shared trusts are all in force together, in any order of import.", "quantifier": "every reachable database, certificate, list of certificates, and time", "why_tests_cant": "all graphs and certificates", "anchors": ["trust-graph/src/trust_graph.rs::add", "trust-graph/src/trust_graph.rs::get_all_certs", "trust-graph/src/trust_graph.rs::weight"]}
{"id": "C83", "title": "The start script installs its certificates", "statement": "Run by the creator of the service with importable certificates, the start script reports nothing but true, sets the root, and afterwards every certificate of its list is returned by get_all_certs of its last key while its trusts live. With expired certificates it reports an error for each one and true, and only sets the root. Run by somebody else it reports that first.", "quantifier": "every reachable database, list of certificates, node and clock", "why_tests_cant": "all databases and lists of certificates", "anchors": ["builtin-package/on_start.air", "service/src/service_api.rs::set_root", "service/src/service_api.rs::insert_cert"]}
{"id": "C84", "title": "From the administrator to isFluencePeer", "statement": "A new node that runs the start script with the certificates made by the administration program for a list of nodes reports success and for two years answers: isFluencePeer is true exactly on the nodes of the list; weights are 32 for the root, 16 for the label key and the example key, 8 for the nodes, 0 for anybody else. Afterwards only the root has weight, and isFluencePeer is false everywhere.", "quantifier": "every choice of key pairs with the published root and label peer ids, every list of nodes, all times of making, starting and asking", "why_tests_cant": "all lists of nodes and all times", "anchors": ["admin/index.ts", "builtin-package/on_start.air", "aqua/labelling.aqua::isFluencePeer", "service/src/service_api.rs::insert_cert"]}
{"id": "C85", "title": "Restarting loses nothing and invents nothing", "statement": "Running the start script on a database in use keeps every root with its weight factor, every revocation that no listed trust is newer than, and every live trust between pairs not replaced by newer listed trusts. Whatever is new afterwards is a listed trust whose signature verified. Run by somebody other than the creator it does not change the roots.", "quantifier": "every reachable database, list of certificates, node, clock, and every schedule of storage faults", "why_tests_cant": "all databases and fault schedules", "anchors": ["builtin-package/on_start.air", "service/src/service_api.rs::insert_cert", "service/src/storage_impl.rs"]}
{"id": "C86", "title": "The example computes only on trusted nodes", "statement": "trusted_computation computes on a node exactly if the relay has, at the time of its clock, a certificate of the node that passes through the caller; otherwise it reports that there is none, or the failure of the storage. While a revocation of the node by the caller is stored nothing is computed on it.", "quantifier": "every reachable database, relay, clock, caller and node, and every schedule of storage faults", "why_tests_cant": "all graphs", "anchors": ["example/aqua/computation.aqua::trusted_computation", "aqua/trust-graph-api.aqua::get_all_certs_from"]}
{"id": "C87", "title": "Permitting and forbidding computations", "statement": "A caller with an extensible certificate of weight at least 2 and no relation with the node as new as the relay's clock can call add_trust; it reports no error and the computation is permitted until the trust or the certificate expires. A caller can call revoke; it reports no error and the computation is refused, whatever calls and failures follow, until somebody submits a trust of the caller in the node that is newer than the revocation; computations on nodes whose certificate does not contain the revoked node stay permitted.", "quantifier": "every reachable database, caller, node, clocks, and every later history", "why_tests_cant": "all graphs and all later histories", "anchors": ["example/index.ts", "example/aqua/computation.aqua::trusted_computation", "aqua/trust-graph-api.aqua::add_trust", "aqua/trust-graph-api.aqua::revoke"]}
{"id": "C88", "title": "max_chain_len limits how far trust is passed on", "statement": "A successful add_trust of a trust in somebody else returns a weight other than 0 exactly if the issuer is a root with a max_chain_len other than 0 or has a certificate with fewer trusts after the root trust than the max_chain_len of its root; otherwise nothing is stored. Hence, whatever calls were made and whatever failed, every stored trust in somebody else was issued by a key that was in such a position at some moment.", "quantifier": "every reachable database, trust, issuer and time; every history", "why_tests_cant": "all graphs, factors and histories", "anchors": ["trust-graph/src/trust_graph.rs::add_trust", "trust-graph/src/trust_graph.rs::get_next_weight", "trust-graph/src/trust_graph.rs::weight", "trust-graph/src/trust_graph.rs::set_root", "README.md"]}
{"id": "C89", "title": "The weights along a chain", "statement": "README: with a root R of max_chain_len 4 and a chain R -> A -> B -> C the weights are 8, 4, 2, 1. (In general: halving along the chain from the weight of the root, 0 for everybody else, and 0 for everybody behind a trust that has expired.)", "quantifier": "every chain of different keys of any length up to max_chain_len, every max_chain_len up to 16, and every time", "why_tests_cant": "all lengths, keys and times", "anchors": ["README.md", "trust-graph/src/trust_graph.rs::set_root", "trust-graph/src/trust_graph.rs::add", "trust-graph/src/trust_graph.rs::weight"]}
{"id": "C90", "title": "A trusted subnetwork", "statement": "README: if A is set as root, issues itself a root trust and trusts to other peers, and these are put on a peer, then get_weight_from(T, A) there reflects whether T is in the subnetwork of A and these peers.", "quantifier": "every authority, every list of members, every order and time of putting, every target", "why_tests_cant": "all sets of members and all targets", "anchors": ["README.md", "trust-graph/src/trust_graph.rs::weight_from", "trust-graph/src/trust_graph.rs::weight", "trust-graph/src/trust_graph.rs::set_root", "trust-graph/src/trust_graph.rs::add_trust"]}
{"id": "C91", "title": "Permissions managed by weights", "statement": "If A is a root with max_chain_len at least 1 and a root trust in force, a newer trust of A in T makes the weight of T other than 0 until one of the two trusts expires. If A is the only root and has revoked T, the weight of T is 0, whatever calls and failures follow, until a trust of A in T issued after the revocation, or another root, is submitted. While no root has a root trust in force, only roots have weight.", "quantifier": "every reachable database, root, target and time; every later history", "why_tests_cant": "all graphs and all later histories", "anchors": ["README.md", "trust-graph/src/trust_graph.rs::weight", "trust-graph/src/trust_graph.rs::add_trust", "trust-graph/src/trust_graph.rs::revoke"]}
{"id": "C92", "title": "The output of the example", "statement": "If the client of example/index.ts has, on the relay, a certificate of weight at least 2 that it can extend by the three nodes and that does not expire during the run, no relation with the nodes as new as the start, and the relay's clock advances over the two waits, then the program prints exactly the results of example/README.md: three failures, two trusts added, failure and two successes, the revocation, two failures and one success.", "quantifier": "every reachable relay database, client, nodes and clock readings", "why_tests_cant": "the run depends on everything stored on the relay and on the clock between any two of its steps", "anchors": ["example/index.ts::main", "example/index.ts::revoke_all", "example/index.ts::add_new_trust_checked", "example/index.ts::revoke_checked", "example/index.ts::exec_trusted_computation", "example/README.md"]}
{"id": "C93", "title": "The example on a bootstrapped node", "statement": "On a new node started with the certificates of the admin program, the example run with the example key before the certificates expire prints the results of example/README.md, whatever three distinct nodes other than the root and the example key are used.", "quantifier": "every network, times of making, starting and running, nodes", "why_tests_cant": "all networks and all clock readings", "anchors": ["example/index.ts::main", "admin/index.ts", "builtin-package/on_start.air", "example/README.md"]}
{"id": "C94", "title": "Key pairs survive the conversion to libp2p", "statement": "Converting a key pair to a libp2p key pair and back yields the same pair, the other way round likewise, neither conversion panics, and both pairs have the same peer id.", "quantifier": "every key pair of every format", "why_tests_cant": "the repository tests ten random keys; a panic for one secret in the space would be missed", "anchors": ["keypair/src/key_pair.rs::From<libp2p_identity::Keypair> for KeyPair", "keypair/src/key_pair.rs::From<KeyPair> for libp2p_identity::Keypair", "keypair/src/key_pair.rs::get_peer_id"]}
{"id": "C95", "title": "Certificates can be carried to another node", "statement": "Certificates that a node returned (each within its root's max_chain_len) can be added with add to a new node that has the same roots and nothing stored, in any order: every call succeeds, the node then holds exactly the trusts of those certificates and returns each certificate for its last key as long as its trusts have not expired. If all certificates of a key were carried, the key has the same weight there as on the first node.", "quantifier": "every reachable first node, every reachable new node without trusts and revocations, every list of returned certificates in every order with every import times before their expiry, every key", "why_tests_cant": "the two nodes' graphs, the choice of certificates and the order of import are unbounded; no test of the repository uses two nodes", "anchors": ["trust-graph/src/trust_graph.rs::add", "trust-graph/src/trust_graph.rs::get_all_certs", "trust-graph/src/trust_graph.rs::weight", "service/src/service_api.rs::insert_cert"]}
{"id": "C96", "title": "Nobody confers more than half of their own weight", "statement": "The weight that a key has through an issuer (weight_from, the issuer being another key) is at most half of the issuer's own weight, or 1, and a key has weight through an issuer only if the issuer has weight.", "quantifier": "every reachable database, every pair of different keys, every time", "why_tests_cant": "it compares two searches over arbitrary graphs with cycles, several roots and revocations", "anchors": ["trust-graph/src/trust_graph.rs::weight_from", "trust-graph/src/trust_graph.rs::weight", "trust-graph/src/trust_graph.rs::certificates_weight_factor"]}
{"id": "C97", "title": "Compromised keys do bounded harm", "statement": "If some keys are in the wrong hands, then whatever they sign, in whatever order and at whatever times it is handed over, and whatever SQL statements fail: no key's weight rises above its weight before, or half of the weight (or 1) that one of the compromised keys had before; keys without weight, however many, raise nobody's weight; and certificates on which no compromised key stands before the last key stay as they were. Through the service: if between two answers of get_all_certs about a peer, at times t and T, only compromised keys have validly signed what was submitted, then a certificate on which no compromised key stands before the last is in the second answer exactly if it is in the first and its trusts all last beyond T.", "quantifier": "every reachable database, every set of keys, every sequence of calls (queries included) that hand over only relations issued by keys of the set and forged ones, with every pattern of SQL failures, every target and time; every run of the service with two such answers in it", "why_tests_cant": "the attacker's set of keys and sequence of calls are unbounded", "anchors": ["trust-graph/src/trust_graph.rs::add_trust", "trust-graph/src/trust_graph.rs::add", "trust-graph/src/trust_graph.rs::revoke", "trust-graph/src/trust_graph.rs::weight", "trust-graph/src/trust_graph.rs::get_all_certs"]}
{"id": "C98", "title": "Peer ids survive serialization", "statement": "A peer id written with peerid_serializer is read back as the same peer id, and no other text is read as that peer id.", "quantifier": "every peer id of a key of any format or read from a text; every text", "why_tests_cant": "the texts and digests are unbounded; the repository has no test of it", "anchors": ["keypair/src/lib.rs::peerid_serializer"]}
{"id": "C99", "title": "The library behaves like a small reference machine", "statement": "The library over SQLite can be understood without database, search or weight factors: it behaves like a machine whose state is the maximum chain length of each root and the latest relation of each ordered pair of keys, and whose answers are defined from these (certificates as admissible chains, weights as the best of them). Every sequence of calls gets answers that the machine gives, and the machine leaves nothing open but the order of certificates of the same length and of revocations. When SQL statements fail, the call reports it, and what it leaves is what the machine holds after a beginning of the call.", "quantifier": "every sequence of calls of the public API with any arguments, from an empty database, with any pattern of SQL failures (fewer than 2^32 - 16 relations handed over)", "why_tests_cant": "it ranges over all sequences of calls and all failure patterns, and equates two different programs", "anchors": ["trust-graph/src/trust_graph.rs::TrustGraph", "trust-graph/src/trust_graph_storage.rs::Storage", "service/src/storage_impl.rs::SQLiteStorage"]}
{"id": "C100", "title": "Reading a secret key wipes the buffer", "statement": "Reading a secret key from a caller's buffer (Ed25519 pair or secret, Secp256k1 secret raw or as an RFC 5915 EC private key, RSA from PKCS#8) always returns. When it returns a key, the buffer holds only zeros, as many bytes as before. When it returns an error the buffer is untouched or holds only zeros; it is untouched except for DER input whose outer SEQUENCE could be read. The key returned is the one in the buffer: for a raw format the bytes themselves, for an EC private key the content of the OCTET STRING that is the second element of the outer SEQUENCE, and exactly such buffers with a valid secret are accepted.", "quantifier": "every reader, every buffer content and length", "why_tests_cant": "The tests read freshly generated keys; wiping and rejection have to hold for every buffer, including every malformed DER.", "anchors": ["keypair/src/ed25519.rs::Keypair::decode", "keypair/src/ed25519.rs::SecretKey::from_bytes", "keypair/src/secp256k1.rs::SecretKey::from_bytes", "keypair/src/secp256k1.rs::SecretKey::from_der", "keypair/src/rsa.rs::Keypair::from_pkcs8", "keypair/src/key_pair.rs::secp256k1_from_der"]}
{"id": "C101", "title": "The SQL texts do what the storage promises; restarts keep the data", "statement": "On a new database file, the service can be started any number of times and called any number of times. The SQL statements, as written in the source, give in every such run exactly the answers and effects that the other properties describe (the run is one of the reference machine of C99). Starting again leaves the tables as they are, also when the start fails, and a start succeeds whenever no statement fails, also after starts that failed half way.", "quantifier": "every sequence of starts and calls with any arguments, every schedule of failing statements", "why_tests_cant": "The tests run a fixed sequence on one file and never restart; whether conditions, primary keys, column order and parameter order of the statements are right has to hold for all table contents.", "anchors": ["service/src/storage_impl.rs::create_tables", "service/src/storage_impl.rs::SQLiteStorage", "service/src/main.rs::main"]}
{"id": "C102", "title": "The library works over any storage that does what the trait describes", "statement": "The graph is generic over a public storage trait. If an implementation keeps each pair of keys' newest statement, lists what is stored without repetition in any order, keeps root weight factors, and changes nothing when a method fails, then every run of the library over it gives the answers and effects of the reference machine of C99. The SQLite storage of the service is such an implementation.", "quantifier": "every storage implementation that keeps to the contract, every list order, every sequence of calls with any arguments, every failure of a storage method", "why_tests_cant": "The tests use the one storage that exists. No test can cover all implementations, nor the list orders the present one never uses.", "anchors": ["trust-graph/src/trust_graph_storage.rs::Storage", "trust-graph/src/trust_graph.rs::TrustGraph", "service/src/storage_impl.rs::SQLiteStorage"]}
{"id": "C103", "title": "Queries stay feasible when members misbehave", "statement": "The number of certificates that a query about a key has to enumerate stays in proportion to what is stored: a member of the network cannot, with polynomially many trusts, make it grow beyond every polynomial bound for other keys.", "quantifier": "every reachable network, every member, every target key", "why_tests_cant": "The tests use a handful of trusts. The growth shows only as a function of the size, for all sizes.", "anchors": ["trust-graph/src/trust_graph.rs::TrustGraph::bf_search_paths", "trust-graph/src/trust_graph.rs::TrustGraph::get_all_certs", "trust-graph/src/trust_graph.rs::TrustGraph::weight", "trust-graph/src/trust_graph.rs::TrustGraph::add_trust"]}
{"id": "C104", "title": "Keys, signatures and relations survive serialisation", "statement": "A public key, signature, trust, revocation or relation that is serialised with serde and read back is the same, whatever the data format, including fractions of seconds, and also when the reader is compiled for another target that has the key formats involved. Reading anything else gives a value or an error; a record with named fields is read only if each field is there exactly once, and their order does not matter. A time is read from a record with just the fields secs and nanos, as their sum.", "quantifier": "every key, signature, trust and relation, every data format (self-describing or not, naming or numbering variants), every pair of targets, every malformed input", "why_tests_cant": "The tests serialise no key with serde, and a test binary is compiled for one target only.", "anchors": ["keypair/src/public_key.rs::PublicKey", "keypair/src/signature.rs::Signature", "keypair/src/secp256k1.rs::Serialize for PublicKey", "keypair/src/secp256k1.rs::Deserialize for PublicKey", "trust-graph/src/trust.rs::Trust", "trust-graph/src/revoke.rs::Revocation", "trust-graph/src/trust_relation.rs::TrustRelation"]}
{"id": "C105", "title": "The error text tells why a call was refused", "statement": "The error text of a result is empty exactly if the call succeeded. Otherwise it tells the reason: not the creator of the service, a foreign timestamp, dated in the future, unreadable input, expired, wrong signature, storage failure, no root, too few trusts in a certificate, or a key that does not occur where it should. No two errors with different reasons have the same text, whatever keys, signatures, key formats or certificates the caller sent and are quoted in it.", "quantifier": "every call, argument, call context and database; every error and every text quoted in it", "why_tests_cant": "Texts quote arbitrary input of the caller, so that one error could imitate another; tests compare one or two texts.", "anchors": ["service/src/error.rs::ServiceError", "service/src/dto.rs::DtoConversionError", "keypair/src/error.rs", "trust-graph/src/trust.rs::TrustError", "trust-graph/src/certificate.rs::CertificateError", "trust-graph/src/trust_graph.rs::TrustGraphError", "trust-graph/src/revoke.rs::RevokeError", "service/src/results.rs"]}
{"id": "C106", "title": "Errors name the trust that is wrong", "statement": "If Certificate::verify fails, its error says exactly what is wrong: the certificate is empty, the root trust does not verify and why, the root is not trusted, or the number of the last trust in the chain that does not verify under the key before it and why. If a certificate text cannot be read because of one of its trusts, the error has the number of the first such trust and why. The text of the error for too short certificates states the number of trusts that is needed. In the texts of the errors the numbers are in decimal digits.", "quantifier": "every certificate, list of roots and time; every certificate text; every encoded certificate", "why_tests_cant": "Which trust is reported depends on all trusts of the chain and the direction of the check; tests check single errors.", "anchors": ["trust-graph/src/certificate.rs::verify", "trust-graph/src/certificate.rs::from_str", "trust-graph/src/certificate.rs::decode", "trust-graph/src/certificate.rs::CertificateError"]}
{"id": "C107", "title": "The whole service behaves like a small reference machine", "statement": "Take any use of the service from a new database file on: starts and restarts, calls of all exported functions by anyone with any arguments and call contexts, and SQL statements that fail at any moment. What is seen from outside is what the reference machine shows: a call is refused with a reason that applies to it, or stands for one library call or computation on what its arguments name, with the same effect on the set of roots and relations and with the answer of the machine in the result record; a call after a trap is as described in C108. A call that is permitted and whose arguments can be read is never refused by the service itself, and effect and result of a call are determined by the calls before, up to the order of lists and which of several applicable reasons is reported.", "quantifier": "every sequence of starts and calls with any callers, contexts and arguments, with SQL failures at any moment, as long as fewer than 2^32 - 16 relations are handed over", "why_tests_cant": "Joins argument checking, decoding, the graph and SQL over unbounded histories; tests replay single short histories.", "anchors": ["service/src/service_api.rs", "service/src/main.rs", "service/src/misc.rs", "service/src/dto.rs", "service/src/results.rs", "service/src/storage_impl.rs", "trust-graph/src/trust_graph.rs"]}
{"id": "C108", "title": "A bad call does not stop the service for others", "statement": "Whatever calls were made before, by whomever and with whatever arguments, later calls are still answered with result records.", "quantifier": "every history of starts and calls with any callers and arguments, with SQL failures at any moment, and every later call", "why_tests_cant": "Depends on what state a call leaves behind in the memory of the module when it ends badly; tests use a fresh module each.", "anchors": ["service/src/misc.rs::with_tg", "service/src/misc.rs::INSTANCE", "service/src/service_api.rs::insert_cert_raw", "trust-graph/src/certificate.rs::from_str"]}
{"id": "C109", "title": "Functions used at the same time do not disturb each other", "statement": "Many clients may use the published Aqua functions at the same time, on any nodes, so that their clock readings, signatures and service calls interleave in any order. Every function that has returned has had the same effect and the same result as if it had been executed at once, at one moment between its start and its end; there is one order of these moments that explains everything that was seen, and a function that returned before another began comes before it. Functions that have not returned have had no effect.", "quantifier": "every number of clients, nodes and functions with any arguments, every interleaving of their steps, every clock reading and signature, every storage", "why_tests_cant": "The number of interleavings grows without bound with the number of clients and steps.", "anchors": ["aqua/trust-graph-api.aqua", "service/src/service_api.rs"]}
{"id": "C110", "title": "Nodes that have been told the same agree", "statement": "Take two nodes with the same roots. Each has been told trusts and revocations of one collection, by whatever calls, in whatever order and as often as you like. Telling them everything again and again, they come to a state in which this changes nothing any more. In this state both give every key the same certificates and the same weight.", "quantifier": "every collection of trusts and revocations, every two histories of calls that hand over nothing else, with SQL failures at any moment before, every time, every key", "why_tests_cant": "The number of orders and repetitions is unbounded, and whether a trust is taken depends on what was known when it arrived.", "anchors": ["trust-graph/src/trust_graph.rs::add_trust", "trust-graph/src/trust_graph.rs::revoke", "trust-graph/src/trust_graph.rs::get_all_certs", "trust-graph/src/trust_graph.rs::weight", "service/src/storage_impl.rs::update_relation"]}
{"id": "C111", "title": "What certificates handed over are worth", "statement": "`certificates_weight_factor` may be called with any certificates. Without certificates it answers None. If every certificate is non-empty and begins with a registered root, it answers the least of root factor plus number of further trusts, which stands for the greatest worth. Otherwise it refuses, for the first certificate that is empty (length error) or whose first key is no root (NoRoot). As documented, certificates with a revoked trust do not count. It changes nothing.", "quantifier": "every reachable state, every list of certificates (also made up by the caller), every pattern of SQL failures", "why_tests_cant": "Lists and certificates are unbounded, and the answer must not depend on where among them the best or the faulty one is.", "anchors": ["trust-graph/src/trust_graph.rs::certificates_weight_factor", "trust-graph/src/trust_graph.rs::get_weight_from_factor"]}
{"id": "C112", "title": "Generated key pairs", "statement": "`KeyPair::generate(format)` returns, for every format, a pair of this format made of the first random bytes that are a secret of the format; it never fails. Every pair of the format can come out and none is more likely than another, whatever number of rounds is needed. The pair signs, and its signatures are accepted.", "quantifier": "every format, every sequence of random bytes, every number of rounds, every message", "why_tests_cant": "A test sees a few pairs; equal likelihood is a statement about all sequences of random bytes.", "anchors": ["keypair/src/key_pair.rs::KeyPair::generate", "keypair/src/ed25519.rs::SecretKey::generate", "keypair/src/secp256k1.rs::SecretKey::generate"]}
{"id": "C113", "title": "Shutting a key out", "statement": "If a key is no root and every root has revoked it, then it has no certificates and its weight is 0, nothing it signs is taken any more, it stands on nobody's certificate, and it confers weight on nobody. This stays so, whatever calls, forged submissions and failures follow, as long as no other root is set and no root signs a trust in the key dated after its revocation.", "quantifier": "every reachable database, every key, every number of roots, every later history of calls with SQL failures, every time", "why_tests_cant": "The claim is about every later sequence of calls, and about every path in every graph.", "anchors": ["trust-graph/src/trust_graph.rs::revoke", "trust-graph/src/trust_graph.rs::bf_search_paths", "trust-graph/src/trust_graph.rs::add_trust", "trust-graph/src/trust_graph.rs::weight"]}
{"id": "C114", "title": "Strangers change nothing", "statement": "Take keys of which none is a root and none is trusted by anybody else. Whatever they sign, in whatever amount and order, and whatever forged relations of others are handed over with it: nothing of it stays in the database, and every answer (certificates, weights, revocations, what add_trust returns) is afterwards what it was before.", "quantifier": "every reachable database, every set of strangers (also infinite), every sequence of calls submitting only relations signed by strangers, with SQL failures at any moment, every key and time", "why_tests_cant": "Sets of keys and sequences of calls are unbounded.", "anchors": ["trust-graph/src/trust_graph.rs::add_trust", "trust-graph/src/trust_graph.rs::revoke", "trust-graph/src/trust_graph.rs::get_revocations", "service/src/storage_impl.rs::update_relation"]}
{"id": "C115", "title": "Setting a root only adds", "statement": "A successful set_root(k, n) changes no trust and no revocation, loses no certificate and lowers no weight. New certificates begin with k; a weight that rises is the new weight 2^min(16,n) of k itself, or the worth of a certificate that begins with k. If k was a root already, no certificate and no weight changes.", "quantifier": "every reachable database, every key k and n, every target key and time", "why_tests_cant": "Graphs, certificates and times are unbounded.", "anchors": ["trust-graph/src/trust_graph.rs::set_root", "trust-graph/src/trust_graph.rs::weight", "trust-graph/src/trust_graph.rs::get_all_certs", "service/src/storage_impl.rs::set_root_weight_factor"]}
{"id": "C116", "title": "Nobody changes their own standing", "statement": "Whatever a key signs - trusts and revocations, of others or of itself - and whenever and however often it is handed over, the key's own weight, its weight from each issuer and the numbers add_trust returns for trusts it issues stay the same. The certificates issued for it stay the same, except that its own trust in itself may be appended to one.", "quantifier": "every reachable database, every key, every history of calls that hand over only relations signed by this key (and forged ones, and queries) not later than the query, with any failures of SQL statements; dates and times below 2^63 seconds (beyond that the database compares them as negative numbers, see C17)", "why_tests_cant": "Histories and graphs are unbounded, and loops through the key itself must be considered.", "anchors": ["trust-graph/src/trust_graph.rs::weight", "trust-graph/src/trust_graph.rs::add_trust", "trust-graph/src/trust_graph.rs::bf_search_paths"]}
{"id": "C117", "title": "Calls can be repeated", "statement": "A call that has been made before, any number of times, successfully or interrupted by a failing SQL statement, can be made again: it has the same answer and leaves the same relations and roots as if it were made for the first time.", "quantifier": "every call of the library, every reachable database, every number of attempts, with any SQL statements failing in any of them", "why_tests_cant": "Every point of failure in every attempt must be considered; databases are unbounded.", "anchors": ["trust-graph/src/trust_graph.rs::add", "trust-graph/src/trust_graph.rs::add_trust", "trust-graph/src/trust_graph.rs::revoke", "trust-graph/src/trust_graph.rs::set_root", "service/src/storage_impl.rs::update_relation"]}
{"id": "C118", "title": "A node's answers about a key can be carried to another node together with the revocations", "statement": "Take a node that has no relations but the same roots, add to it the certificates that a first node returned, in any order, and then revoke what the first node returned as revocations of the keys on these certificates. All calls succeed, and for every key all of whose certificates have been carried the second node returns the same certificates, the same weight and the same weights by issuer as the first one. The certificates must come first.", "quantifier": "every two reachable databases with the same roots, every list of certificates returned by the first one, in any order and at any times at which they are live, every key; dates and times below 2^63 seconds (beyond that the database compares them as negative numbers, see C17)", "why_tests_cant": "The databases and certificates are unbounded, and trusts and revocations of different certificates interact.", "anchors": ["trust-graph/src/trust_graph.rs::add", "trust-graph/src/trust_graph.rs::revoke", "trust-graph/src/trust_graph.rs::get_all_certs", "trust-graph/src/trust_graph.rs::get_revocations", "trust-graph/src/trust_graph.rs::weight", "service/src/service_api.rs::get_all_certs", "service/src/service_api.rs::export_revocations"]}
{"id": "C119", "title": "A wrong clock loses trusts and nothing else, and these can be added again", "statement": "If a node is asked at times that are wrong, the latest of them T, then it keeps its roots and revocations, returns no certificate and no weight that it would not have returned before, and still returns every certificate whose trusts expire after T. Whoever has kept the certificates that it returned before can add them again, in any order, if they have not expired at the right time and nobody on them has revoked somebody after them: all calls succeed, and for every key all of whose certificates are added the node returns the same certificates and the same weight as before.", "quantifier": "every reachable database, every sequence of queries at any times up to T, with any SQL statements failing, every list of certificates returned before, every key", "why_tests_cant": "Histories of queries, times and databases are unbounded.", "anchors": ["trust-graph/src/trust_graph.rs::get_all_certs", "trust-graph/src/trust_graph.rs::weight", "trust-graph/src/trust_graph.rs::add", "service/src/storage_impl.rs::remove_expired"]}
{"id": "C120", "title": "One service's answers can be handed to another service", "statement": "Let a client ask one node's service for the certificates of peers (get_all_certs) and for the revocations of the peers on them (export_revocations), and hand the records as they are to the service of another node that has the same roots and nothing else: first the certificates (insert_cert, in any order), then the revocations (revoke). All calls report success, and from then on both services give the same certificates and the same weight for every peer all of whose certificates have been handed over.", "quantifier": "every two reachable databases with the same roots, every list of records given out by the first service, in any order and at any times at which the trusts are live, every peer; dates and times below 2^63 seconds (beyond that the database compares them as negative numbers, see C17)", "why_tests_cant": "Databases and lists of records are unbounded; conversions of all keys, signatures and times must fit together.", "anchors": ["service/src/service_api.rs::get_all_certs", "service/src/service_api.rs::export_revocations", "service/src/service_api.rs::insert_cert", "service/src/service_api.rs::revoke", "service/src/service_api.rs::get_weight", "service/src/dto.rs"]}
{"id": "C121", "title": "What is in force stays in force, and can be renewed without a gap", "statement": "Once get_all_certs returns a certificate, then at every later time before its trusts expire a certificate along the same keys is returned and counts as much, whatever calls anybody makes meanwhile, roots set and SQL failures included, unless a key of the certificate submits a revocation of another key of it or replaces a trust between them with one that expires earlier; if nothing at all is submitted between its keys, the certificate itself is still returned. A certificate in force can be renewed by adding one along the same keys with later trusts, and from then on it is in force until the new trusts expire.", "quantifier": "every reachable database, key, certificate and time, every sequence of calls with every pattern of SQL failures in between", "why_tests_cant": "Quantifies over every history of calls by other parties and every time before expiry.", "anchors": ["trust-graph/src/trust_graph.rs::get_all_certs", "trust-graph/src/trust_graph.rs::add", "trust-graph/src/trust_graph.rs::weight", "service/src/storage_impl.rs::remove_expired", "service/src/storage_impl.rs::update_relation"]}
{"id": "C122", "title": "Printing a key pair tells nothing but the public key", "statement": "The debug text of a secret key is always the same; the debug text of a key pair is determined by its public key, whatever the secret is; the debug text of an RSA public key is exactly the key in hexadecimal, so different keys print differently.", "quantifier": "every secret key, key pair and RSA public key", "why_tests_cant": "That a text does not depend on the secret is a statement about all pairs of secrets.", "anchors": ["keypair/src/ed25519.rs::fmt", "keypair/src/secp256k1.rs::fmt", "keypair/src/rsa.rs::fmt"]}
{"id": "C123", "title": "The certificates shipped with the service are genuine, and a node started with them works until they expire", "statement": "When the creator of the service starts a new node with the start script and the list of certificates in builtin-package/on_start.json before 2025-01-25 18:07:48 UTC, the script reports nothing but true. Until that time the node takes exactly the eleven nodes named in the file for Fluence peers, and the weights are 32 for the root, 16 for the label and the example key, 8 for these nodes and 0 for all other keys; afterwards the root alone has weight. A node started later reports an error for each of the twelve certificates and knows the root and nothing else. The secret key in the repository belongs to the key in the first certificate, and the example program run with it on such a node prints what its README says.", "quantifier": "every starting time and course of the clock during the start, every key asked about, every time of asking, every choice of the three nodes of the example", "why_tests_cant": "The tests do not load the file, and what the node answers must hold for every key and every time, before and after the expiry date.", "anchors": ["builtin-package/on_start.json::certs", "distro/init_certs.json::certs", "builtin-package/on_start.air", "example_secret_key.ed25519", "example/index.ts::main", "aqua/labelling.aqua::isFluencePeer"]}
{"id": "C124", "title": "Nobody can speak for somebody else", "statement": "Suppose the holders of certain keys (the honest ones) keep their secrets and the signature scheme is not broken. Then, whatever calls anybody makes, in every answer of the service: each link of a certificate whose issuer is honest was signed by that issuer for exactly that key and those dates; each revocation in the name of an honest key was signed by it; and a key with a weight above 0 is a root registered by the owner of the service, or reached from one by steps each of which the honest issuer has signed. In particular a coalition of keys without roots, none of which was ever recommended from outside, has weight 0 for ever.", "quantifier": "every run of the service (starts, crashes, calls by anybody with any arguments), every set of honest keys, everything they have ever signed", "why_tests_cant": "Attackers choose the calls and their order; tests try only a few forgeries.", "anchors": ["service/src/service_api.rs::add_trust", "service/src/service_api.rs::revoke", "service/src/service_api.rs::get_weight", "trust-graph/src/trust.rs::verify", "trust-graph/src/revoke.rs::verify", "keypair/src/secp256k1.rs::verify_hashed"]}
{"id": "C125", "title": "What the service has once certified it certifies until the expiry date", "statement": "The service does to the graph exactly what its successful calls say, in their order, and nothing else; refused calls, crashes and restarts do nothing. In particular, if the service returns a certificate for a key at one time, it returns it again at any later time before one of its trusts expires, whatever calls anybody makes in between, provided that nothing was submitted between two keys of the certificate. If only longer-living trusts were submitted between them, the weight of the key is still above 0.", "quantifier": "every run of the service (starts, crashes, storage failures, calls by anybody with any arguments), every certificate ever returned, every later query; dates and times below 2^63 seconds (beyond that the database compares them as negative numbers, see C17)", "why_tests_cant": "Any calls by any peers may come in between, and the service may be restarted; tests make a few calls and ask at once.", "anchors": ["service/src/service_api.rs::get_all_certs", "service/src/service_api.rs::get_weight", "trust-graph/src/trust_graph.rs::get_all_certs", "service/src/storage_impl.rs::remove_expired"]}
{"id": "C126", "title": "A key revoked by all roots stays out, as seen through the service", "statement": "Suppose export_revocations for a key returns revocations by every root the owner of the service ever sets, and the key is not one of them. If from then on no trust for that key is submitted that a root has issued after its revocation, then in every later answer the weight of the key is 0, no certificate for it is returned, adding a trust issued by it returns weight 0, and it stands on certificates of other keys at most directly before the last key.", "quantifier": "every run of the service, every key, every later call by anybody, including resubmitted old trusts, and restarts", "why_tests_cant": "The revoked key and its friends may submit any number of trusts in any order, and the service may be restarted at any time.", "anchors": ["service/src/service_api.rs::export_revocations", "service/src/service_api.rs::get_weight", "service/src/service_api.rs::get_all_certs", "service/src/service_api.rs::add_trust", "service/src/storage_impl.rs::update_relation"]}
{"id": "C127", "title": "Nobody raises their own weight and strangers change nothing, as seen through the service", "statement": "Ask get_weight twice for a key. If between the two calls nothing was submitted but trusts and revocations issued by that key, and no root was set, the second answer is not above the first, and is the same if both ask for the same time. Take any keys of which none is a root set by the owner and none was ever trusted by a key outside of them. If between two queries only these have submitted anything and no root was set, no key has got more weight or a new certificate, and for the same time all weights and certificates are the same.", "quantifier": "every run of the service, every key or coalition of keys, everything they may submit between the two calls; dates and times below 2^63 seconds (beyond that the database compares them as negative numbers, see C17)", "why_tests_cant": "An attacker may create any number of keys and submit any number of trusts and revocations in any order.", "anchors": ["service/src/service_api.rs::get_weight", "service/src/service_api.rs::get_all_certs", "service/src/service_api.rs::add_trust", "service/src/service_api.rs::revoke", "trust-graph/src/trust_graph.rs::weight"]}
{"id": "C128", "title": "A damaged row in the database harms nothing but itself", "statement": "Suppose that rows of the table of trusts and revocations in the database file are damaged or lost. Then the service goes on: it answers as if it held just the roots and the trusts and revocations whose rows are intact, before and after any further call and restart. A call may fail on account of the damage only if it submits a trust or revocation by the same issuer for the same key as a damaged row.", "quantifier": "every earlier run, every set of damaged rows, every later sequence of calls, restarts and failing SQL statements", "why_tests_cant": "Any rows may be damaged in any way at any time, and the order in which the database lists the others is not determined.", "anchors": ["service/src/storage_impl.rs::get_relations", "service/src/storage_impl.rs::parse_relation", "service/src/storage_impl.rs::get_relation", "service/src/storage_impl.rs::update_relation", "service/src/storage_impl.rs::root_keys"]}
{"id": "C129", "title": "All keys are treated alike, and only the order of dates matters", "statement": "Make the same calls to two graphs, except that in the second other keys stand for the keys of the first (different keys for different keys), other dates in the same order for the dates, and other signatures for the signatures, genuine exactly where those of the first are. Then all answers are the same but for these names: the same calls are refused for the same reason, the weights are equal, and the certificates and revocations returned correspond one to one. So no key is privileged, no absolute date means anything, and of a signature only its validity counts.", "quantifier": "every pair of corresponding sequences of calls, every correspondence of keys, dates and signatures, every storage", "why_tests_cant": "It compares every history with every renaming of it; a privileged key or date could be any.", "anchors": ["trust-graph/src/trust_graph.rs::TrustGraph", "trust-graph/src/trust.rs::Trust::verify", "trust-graph/src/revoke.rs::Revocation::verify", "service/src/storage_impl.rs::SQLiteStorage"]}
{"id": "C130", "title": "What a certificate proves to somebody who checks it themselves", "statement": "Take a certificate from anywhere and check it against a list of roots at some time. If it verifies, then it begins with one of the roots, nothing on it has expired, and every honest key on it has itself said that it trusts the next key, until just the date and from just the date written there (the root also about itself); so the last key is reached from a root by statements in force. In the other direction a certificate with a root, genuine signatures and no expired trust always verifies. A single trust or revocation that verifies has likewise been said by its issuer, if honest.", "quantifier": "every certificate, however obtained, every list of roots, every time, every set of honest keys and everything they ever said, every unforgeable signature scheme", "why_tests_cant": "The certificate is chosen by an adversary who knows everything that honest keys ever signed; a test tries a few forgeries.", "anchors": ["trust-graph/src/certificate.rs::Certificate::verify", "trust-graph/src/trust.rs::Trust::verify", "trust-graph/src/revoke.rs::Revocation::verify", "keypair/src/public_key.rs::PublicKey::verify"]}
{"id": "C131", "title": "What is printed of trusts, certificates and times identifies them", "statement": "The debug text of a trust, and that of a certificate, is different for different values, also when they differ by a nanosecond only. A time in it can be read back exactly: the number before the unit, times the unit, is the time in nanoseconds. When a trust is refused as expired, the text of the error names two times: the first is the date of expiry, the second the time of the check, exactly, and the first is the earlier one; errors for different times have different texts.", "quantifier": "all trusts, certificates (also empty ones), times of up to 2^64 seconds with nanoseconds, and all times of checking", "why_tests_cant": "Whether two of the possible values print alike is a question about all pairs of values; a test compares the texts of a few.", "anchors": ["trust-graph/src/trust.rs: Debug for Trust, show_pubkey, show_sig, TrustError::Expired, Trust::verify", "trust-graph/src/certificate.rs: Debug for Certificate"]}
{"id": "C132", "title": "The files of certificates are read as what was written", "statement": "The JSON reader behind the distribution crate accepts exactly the texts of RFC 8259 and reads the value that is written there. from_str gives certificates exactly for texts of records that have each of the needed fields once (in any order, other fields are ignored; or an array of the values in order), with strings and with unsigned numbers of the right size; it gives just the values written. What to_string writes, whatever characters the strings contain, is a JSON text from which from_str gets the same certificates back. The file that the administration tool writes is read back as the certificates it had made, in whatever order the node returned the fields. The shipped on_start.json is what the tool writes for the certificates of C123; the shipped init_certs.json is read without a panic, as the same certificates with the root and the maximal length that the start script sets.", "quantifier": "all texts, all JSON values, all certificates with arbitrary strings and numbers, all orders of fields; and the two shipped files", "why_tests_cant": "texts, nestings, escapes and orders of fields are unlimited; a test reads the file that is there", "anchors": ["distro/src/lib.rs: Certs, Cert, Trust, KRAS_CERTS", "distro/init_certs.json", "builtin-package/on_start.json", "admin/index.ts: main"]}
{"id": "C133", "title": "Only what is stored counts, not how it came there", "statement": "Two graphs that hold the same trusts and revocations and the same roots with the same weight factors, however differently they were filled (in another order, with repetitions, with trusts or revocations that have since been replaced or expired, with refused calls in between, from certificates or from single trusts), cannot be told apart: to every later sequence of calls they give the same answers - the same weights, the same sets of certificates, the same revocations, the same errors -, up to the order of certificates of equal length and of revocations, and they hold the same afterwards.", "quantifier": "all pairs of databases reached by any API calls that hold the same relations and root factors, without failing SQL statements from then on; all later sequences of calls of all nine methods with all arguments; sizes below 2^32", "why_tests_cant": "Tests build a graph in one way and ask a few questions of it; that nothing but the content matters quantifies over all pairs of histories with the same content and all their continuations.", "anchors": ["trust-graph/src/trust_graph.rs: TrustGraph", "service/src/storage_impl.rs: SQLiteStorage"]}
{"id": "C134", "title": "The order of updates and their repetition do not matter", "statement": "If trusts and revocations are told to a graph by add_trust and revoke in two ways - the same calls, in different orders and with different repetitions - and in neither way an add_trust answers 0 (the issuer had too little weight at that moment), then both ways lead to the same content, and so (C133) to graphs that no later calls can tell apart. For revocations by anybody and trusts issued by roots this holds without looking at the answers. Provided that no two of the messages about the same pair of keys are dated in the same second, and that no trust expires meanwhile.", "quantifier": "all reachable databases without failing SQL statements, all lists of add_trust and revoke calls with any keys, signatures (also wrong ones) and times, all other lists of the same calls", "why_tests_cant": "n updates have n! orders, and more with repetitions; tests apply one of them", "anchors": ["trust-graph/src/trust_graph.rs: add_trust, revoke", "service/src/storage_impl.rs: update_auth, update_relation, remove_expired"]}
{"id": "C135", "title": "What each call costs the database is known, and every statement matters", "statement": "What is stored determines exactly how many SQL statements a call executes, and the call reports the failure of any of them. If the certificates of a key cost n statements and there are c of them, the weight of the key costs n + 1 + c, its weight from an issuer costs n plus the number of certificates that contain the issuer, and its certificates from an issuer cost n. A trust that verifies costs what the weight of its issuer costs, plus nothing if the issuer's weight is too low, else 1 if something as new is known about the two keys, else 2. A revocation that verifies costs 1 or 2 in the same way. Setting a root and asking for revocations cost 1. What does not verify costs nothing. A certificate whose trusts verify costs what its trusts cost when they are added one after the other.", "quantifier": "every reachable storage, every call, every place at which a statement can fail", "why_tests_cant": "The number depends on what is stored, and a failure can strike at any of the statements.", "anchors": ["trust-graph/src/trust_graph.rs::TrustGraph::bf_search_paths", "trust-graph/src/trust_graph.rs::TrustGraph::get_all_certs", "trust-graph/src/trust_graph.rs::TrustGraph::weight", "trust-graph/src/trust_graph.rs::TrustGraph::add_trust"]}
{"id": "C136", "title": "Services that were told the same say the same", "statement": "Two services on different hosts, with different histories, that have taken in the same trusts (those for which add_trust returned a weight other than 0), the same revocations and the same roots agree: if one of them answers a call with success, the other answers it with success too, provided it is allowed to it and no SQL statement fails, and the two answers are the same up to the order of certificates of the same length and of revocations. It does not matter in which order, how often and at which times they were told, which other calls were made and refused, which SQL statements failed and how often the services were restarted. Conditions: each root was set with one chain length only, two messages about the same pair of keys are dated in different seconds, no trust expires meanwhile, and insert_cert and insert_cert_raw were not used.", "quantifier": "every two runs of the service, with any calls, failures and restarts, that have taken in the same", "why_tests_cant": "It is about all pairs of histories, including all orders of the same messages, at all times and with all failures.", "anchors": ["service/src/service_api.rs::add_trust", "service/src/service_api.rs::revoke", "service/src/service_api.rs::set_root", "service/src/storage_impl.rs: update_auth, update_relation", "trust-graph/src/trust_graph.rs: add_trust, revoke"]}
{"id": "C137", "title": "The queries agree with each other", "statement": "Asked at the same moment about the same key, the queries tell one story: the weight of the key is the greatest of its weight as a root and its weights through each of the roots (weight_from), so asking root by root loses nothing and adds nothing; get_all_certs returns the certificates that get_all_certs_from returns for one of the roots, get_all_certs_from for any issuer returns a part of it in the same order, and for the key itself all of it; and what certificates_weight_factor makes of the certificates returned is the weight returned (0 if there are none). Through the service: of two successful answers at the same time, in whichever order and with nothing but queries between them, get_all_certs_from returns those of the records of get_all_certs, in the same order, on which the issuer is named; get_weight_from answers with no more than get_weight; a peer has weight if there is a certificate for it, and otherwise only if the owner has set it as a root; it has weight through an issuer exactly if there is a certificate through the issuer; and get_host_certs returns what get_all_certs returns for the host.", "quantifier": "every reachable database, every key, issuer and time, every set of roots; weights for graphs of fewer than 2^32 - 16 relations (a chain length is a u32); every run of the service with two such answers in it", "why_tests_cant": "Tests compare queries with expected numbers on a few graphs; that five functions which are computed separately never contradict each other must hold for every graph.", "anchors": ["trust-graph/src/trust_graph.rs: weight, weight_from, get_all_certs, get_all_certs_from, certificates_weight_factor, get_weight_from_factor", "service/src/service_api.rs: get_all_certs, get_all_certs_from, get_host_certs, get_weight, get_weight_from"]}
{"id": "C138", "title": "How the database grows", "statement": "The table of relations never has more rows than there are ordered pairs of keys for which a relation with a valid signature has been handed over, so n keys fill at most n*n rows however often they renew and revoke; one call adds at most one row for each validly signed relation handed over with it, so neither queries nor forged relations add anything; and the table of roots has exactly one row for each successful set_root, also for those that repeat an earlier one (F3).", "quantifier": "every history of calls with any arguments, with SQL failures at any moment", "why_tests_cant": "Growth without bound shows after months of operation; the bound must hold for every history.", "anchors": ["service/src/storage_impl.rs: create_tables, insert, update_relation, remove_expired, set_root_weight_factor", "trust-graph/src/trust_graph.rs: add_trust, add, revoke, set_root"]}
{"id": "C139", "title": "Weight is the distance from the roots", "statement": "As long as nobody to whom trust leads has revoked anybody, the weight of a key is the weight of a root that has signed for itself, halved once for each trust on the way from the root to the key (but never below 1), for the best way there is, or its own weight as a root if this is more; ways that lead in circles make no difference. If every root has signed for itself, weights can be checked locally: the weight of a key is the greatest of its weight as a root and half of the weight, but at least 1, of each key of weight that trusts it. Whatever has been revoked, no key has more than the best way gives. Through the service: whatever calls it has had, get_weight answers with more than 0 only if the peer was set as a root and has this weight as such, or trusts that were submitted and have not expired lead to it from a root and this is left of the weight of the root; and if no revocation was ever submitted it answers with at least as much as each way of trusts that it has taken in and that nothing has replaced gives.", "quantifier": "every reachable storage with fewer than 2^32 - 16 relations, every key, every time; every way in the graph, with or without circles; every run of the service with restarts, traps and failing storage", "why_tests_cant": "Quantifies over all ways in arbitrary graphs, of which a cyclic graph has infinitely many; the search follows only some of them", "anchors": ["trust-graph/src/trust_graph.rs: weight, get_all_certs, certificates_weight_factor, bf_search_paths", "trust-graph/src/trust_graph.rs: get_weight_from_factor", "service/src/service_api.rs: get_weight, add_trust, set_root"]}
{"id": "C140", "title": "Exactly what an update changes", "statement": "A revocation of B by A that is news (nothing as new is known about A's relation to B) takes away exactly the certificates, of whatever key, on which A comes before B, except that those on which B has given the last trust stay unless A comes immediately before B; a certificate is also lost if it begins with A and A revokes itself. A revocation that is not news changes no answer. The certificates that a trust of A in B adds all use this trust, or had been cut by a revocation of B by A that the trust replaces; the certificates that it takes away all used the older trust of A in B. A trust that is not news, or for which add_trust returns 0, changes no answer at the same or a later time. As time passes, exactly the certificates that contain a trust that is no longer live are lost. Through the service: if it is asked for the certificates of a peer, then takes an update, and is then asked again with the same time, the two answers differ in just this way.", "quantifier": "every reachable storage, every update that is accepted, every key whose certificates are asked for, every certificate; for trusts and the passage of time every time of the question that is not before that of the update (in the order of the database, the usual one below 2^63); for trusts fewer than 2^32 - 16 relations; through the service every run with restarts, traps and failing storage", "why_tests_cant": "Quantifies over all graphs and all certificates before and after an update", "anchors": ["trust-graph/src/trust_graph.rs: revoke, add_trust, get_all_certs, bf_search_paths", "service/src/storage_impl.rs: update_auth, update_relation, revoke", "service/src/service_api.rs: get_all_certs, revoke, add_trust"]}
{"id": "C141", "title": "What keys say about themselves does not matter", "statement": "Trusts and revocations of keys about themselves, by keys that are not roots, change no weight: neither their own nor that of any other key, neither the weight from any issuer nor what add_trust returns, however many are handed over, in whatever order, together with forged relations and queries, and whatever SQL statements fail. A certificate that visits a key twice is redundant: get_all_certs also returns one that visits the same keys once each, begins with the same root, is shorter and worth at least as much.", "quantifier": "every reachable storage, every later sequence of calls that hand over, with valid signatures, only such relations and set no root (at times not after that of the question, in the order of the database), every key, every issuer; fewer than 2^32 - 16 relations for weights", "why_tests_cant": "Quantifies over all graphs and all later histories; redundancy concerns every certificate of every graph", "anchors": ["trust-graph/src/trust_graph.rs: add_trust, revoke, weight, weight_from, bf_search_paths"]}
{"id": "C142", "title": "Only those from whom trust leads to a key matter for it", "statement": "Take any set of keys that at the present moment are trusted by members of the set only. Whatever is then said about keys outside the set (trusts in them, revocations of them, by whomever, members included), whichever keys outside it become roots, and whatever is asked, each member keeps exactly its certificates, those that contain a given key, its revocations, its weight and the weights that a given key confers on it: what happens downstream never reaches upstream.", "quantifier": "every reachable database, set of keys closed in this sense, present moment, history of calls and storage failures that hands over only relations about keys outside the set and makes only such keys roots, and member of the set", "why_tests_cant": "A test tries one downstream network; the claim ranges over all sets of keys, all histories of any length that stay downstream, and all graphs, with circles and revocations.", "anchors": ["trust-graph/src/trust_graph.rs::bf_search_paths", "trust-graph/src/trust_graph.rs::get_all_certs", "trust-graph/src/trust_graph.rs::weight", "service/src/storage_impl.rs::get_authorizations"]}
{"id": "C143", "title": "What is said downstream or about oneself does not matter, as seen through the service", "statement": "Let the service be asked twice about a peer. (a) Take a set of keys such that all trusts in its members that have been handed over with a valid signature before the first question were signed by members. If the peer is a member, and between the questions only relations about others were handed over and only others were set as roots, then the second get_weight is not above the first and equal to it for the same time; get_all_certs returns nothing new and the same certificates for the same time; export_revocations returns the same revocations. (b) If between the questions keys that the owner has not made roots have handed over only relations to themselves, and no root was set, the second get_weight for any peer is not above the first, and equal to it for the same time.", "quantifier": "every run of the service (any calls by any callers, restarts, failing statements, traps) with two successful answers in it, every peer, set of keys and pair of times below 2^63 that come in order", "why_tests_cant": "The claim is about all runs of the service, of any length, with all the calls that may come in between; a test runs one.", "anchors": ["service/src/service_api.rs::get_weight", "service/src/service_api.rs::get_all_certs", "service/src/service_api.rs::export_revocations", "trust-graph/src/trust_graph.rs::bf_search_paths"]}
{"id": "C144", "title": "How long an answer can be relied on", "statement": "Take a set of keys trusted at present by members of the set only. As long as later submissions are only about keys outside the set and only such keys become roots, an answer about a member tells the later answers in advance. get_all_certs at a later time T returns exactly those of the certificates returned now whose trusts all last beyond T. The weight never rises, and at T it is still the present one exactly if the present one is 0, or is the key's own root weight, or is given by one of the returned certificates that lasts beyond T. Through the service: the later get_all_certs returns exactly the records returned earlier whose expires_at all lie after T, and a peer that the owner has not made a root has weight above 0 at T exactly if one of the certificates returned earlier lasts beyond T.", "quantifier": "every reachable database, closed set of keys, member of it, pair of times in order and history of calls and storage failures in between that stays outside the set; every run of the service with two successful answers in it", "why_tests_cant": "A test cannot wait for all later times, nor try all the calls that may come in between; the claim predicts the answers for all of them from one answer.", "anchors": ["trust-graph/src/trust_graph.rs::get_all_certs", "trust-graph/src/trust_graph.rs::weight", "trust-graph/src/trust_graph.rs::bf_search_paths", "service/src/storage_impl.rs::get_authorizations", "service/src/service_api.rs::get_all_certs", "service/src/service_api.rs::get_weight"]}
{"id": "C145", "title": "Which texts are certificates", "statement": "Certificate::from_str accepts exactly the texts of this form: two lines, whatever they say, then four lines for each trust: the key and the signature in base 58, the expiry date and the date of issue in seconds, as decimal numbers below 2^64 (leading zeros and a plus sign are allowed); it returns exactly these trusts. Lines may end with a line feed or with a carriage return and a line feed, and the last one need not have an end, without any difference to the result. A text of two or more lines is refused for its form exactly if the number of the lines after the second is not a multiple of four. The serde helper for lists reads a list of texts exactly if it can read each of them, and returns the certificates in their order; otherwise the outcome is that of the first text that cannot be read.", "quantifier": "every text, every list of texts and every certificate", "why_tests_cant": "The claim covers all texts, also those that no version of the program has written, and all ways to lay them out.", "anchors": ["trust-graph/src/certificate.rs::from_str", "trust-graph/src/trust.rs::convert_from_strings", "trust-graph/src/trust.rs::str_to_duration", "trust-graph/src/trust.rs::bs58_str_to_vec", "trust-graph/src/certificate_serde.rs::vec::deserialize"]}
{"id": "C146", "title": "The exchanged bytes and texts are in a fixed format", "statement": "Other programs can exchange keys, signatures, trusts and certificates with this one. A key is a byte (0 Ed25519, 1 RSA, 2 Secp256k1) and the key, a signature likewise. A trust is the key and the signature, each after a byte with its length, then the date of expiry and the date of issue, each as eight bytes of seconds, least byte first. A certificate is six bytes (written as zeros, not looked at when read), the number of trusts, and the trusts, each after a byte with its length. What is signed for a trust is the SHA-256 hash of the key and the two dates in this form; for a revocation, of the length byte, the key and the date. In the records of the service a key is its peer id (base 58 of the libp2p multihash), a signature is its base 58 text and the name ed25519, rsa or secp256k1, and dates are seconds. An Ed25519 pair is its secret and its public key, a Secp256k1 pair its secret. In JSON, relations, trusts, keys and signatures are objects with the names of the fields, keys and signatures being named by their kind and written as arrays of numbers, times as secs and nanos. Exactly these bytes are read, and these are written whenever the lengths fit into a byte.", "quantifier": "every key, key pair, signature, trust, revocation, certificate and byte string", "why_tests_cant": "Round-trip tests hold for any format that is read and written alike, so they do not notice a change of the format; the claim fixes every byte for all values.", "anchors": ["keypair/src/public_key.rs::encode", "keypair/src/public_key.rs::decode", "keypair/src/signature.rs::encode", "keypair/src/signature.rs::decode", "keypair/src/key_pair.rs::KeyFormat", "trust-graph/src/trust.rs::encode", "trust-graph/src/trust.rs::decode", "trust-graph/src/trust.rs::signature_bytes", "trust-graph/src/revoke.rs::signature_bytes", "trust-graph/src/certificate.rs::encode", "trust-graph/src/certificate.rs::decode", "service/src/dto.rs::Trust", "service/src/dto.rs::Revocation", "keypair/src/key_pair.rs::to_vec", "trust-graph/src/trust_relation.rs::TrustRelation"]}
{"id": "C147", "title": "Two nodes that give different answers differ in something that can be named", "statement": "Take two nodes with any histories, asked at any times by their own clocks. A certificate that one shows for a key is missing from the answer of the other exactly if, at the other, its first key is not a root, or one of its trusts is not stored and in force, or somebody on it has revoked somebody after them (other than the issuer of the last trust, F1). If the other weighs the key less, then the key itself is a root of the first and none, or one with a larger factor, at the other; or a certificate worth the whole weight is missing at the other for one of these reasons, or begins with a root that has a larger factor there. A node that knows at least the roots and the trusts in force of another and at most its revocations shows at least its certificates and weighs no key less. Through the service: if one service shows a certificate for a peer and another does not, then at the other the first peer on the certificate was not set as a root, or one of its trusts was not taken in by add_trust, or something else was submitted about the issuer and the recipient of one of its trusts, or a revocation between two peers on it was submitted, or there was a call with a time at which one of its trusts had expired.", "quantifier": "every two databases reachable by any history, every key, every two times; every two runs of the service with any calls, failures and restarts", "why_tests_cant": "It compares two arbitrary histories; tests compare a node with what the author expects of it.", "anchors": ["trust-graph/src/trust_graph.rs::get_all_certs", "trust-graph/src/trust_graph.rs::weight", "trust-graph/src/trust_graph.rs::bf_search_paths", "trust-graph/src/trust_graph.rs::certificates_weight", "service/src/service_api.rs::get_all_certs"]}
{"id": "C148", "title": "The revocations that the service gives out are the ones it was told", "statement": "When export_revocations succeeds for a peer, each record in the answer stands for a revocation of this peer that was handed to the service with revoke, in a record that says the same, and that carries a valid signature of its issuer. No two records of an answer are by the same issuer. And each revocation of the peer with which revoke reported success is in the answer, if all else that was validly submitted about its two keys, before or afterwards, is older; neither time nor restarts nor any other call takes it away.", "quantifier": "every run of the service (calls by anybody, in any order, restarts, traps, SQL failures) that ends with a successful export_revocations; every peer and revocation", "why_tests_cant": "What is exported depends on the whole history of the service: any number of calls, restarts and failures before. A test exports after one or two revocations.", "anchors": ["service/src/service_api.rs: export_revocations, revoke", "trust-graph/src/trust_graph.rs: get_revocations, revoke", "service/src/storage_impl.rs: update_relation, get_revocations"]}
{"id": "C149", "title": "A revocation that the service has taken cuts the revoked key off from the revoker", "statement": "Suppose revoke has reported success at the service for a revocation of one key by another, and all else that was validly submitted about these two keys is older. Then, whatever is called later: in each certificate that the service answers, the revoker stands before the revoked key only if the revoked key is the issuer of the last trust (finding F2); no certificate that ends in the revoked key has the revoker among the keys before it; get_all_certs_from for the revoked key and the revoker answers no certificate, and get_weight_from answers weight 0 for them, if the two keys differ.", "quantifier": "every run of the service (calls by anybody, in any order, restarts, traps, SQL failures) with a successful revoke before its last call; every revocation, every key asked about, every caller and time", "why_tests_cant": "The revocation must keep its effect whatever is added afterwards, after any number of calls and restarts and over every path through the graph. A test looks at one graph right after the revocation.", "anchors": ["service/src/service_api.rs: revoke, get_all_certs, get_all_certs_from, get_weight_from", "trust-graph/src/trust_graph.rs: revoke, bf_search_paths, get_all_certs_from, weight_from", "service/src/storage_impl.rs: update_relation"]}
{"id": "C150", "title": "A chain of trusts that the service has taken in is what it certifies", "statement": "Suppose a key was set as a root, and a chain of trusts leads from it to another key: the first issued by the root for itself, each further one by the key of the one before it, no key twice. Suppose each of them was added at the service with success and a weight other than 0 in the answer, all else that was validly submitted about issuer and recipient of each is older, and nobody on the chain submitted a revocation of somebody further down (other than the next). Then, as long as none of them has expired, whatever else was called: get_all_certs for the last key, if it succeeds, answers this chain among the certificates; so does get_all_certs_from for the last key and any key on the chain; and get_weight, and get_weight_from for any key on the chain, answer a positive weight.", "quantifier": "every run of the service (calls by anybody, in any order, restarts, traps, SQL failures), every chain of any length, every caller, and every time that is not before those of the earlier calls", "why_tests_cant": "The chain may have been submitted in any order and amid any other calls, each of which collects expired entries and may replace relations; tests submit one fixed chain and ask right away.", "anchors": ["service/src/service_api.rs: add_trust, set_root, get_all_certs, get_all_certs_from, get_weight, get_weight_from", "trust-graph/src/trust_graph.rs: add_trust, bf_search_paths, weight", "service/src/storage_impl.rs: update_relation"]}
