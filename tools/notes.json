{
 "C07": "False as stated (finding F2): C07_..._fails gives a graph where the revocation by the root of the last trust's issuer is ignored. The partial theorem covers every other key of the chain.",
 "C08": "Holds for times below 2^63 seconds; beyond that the database compares seconds as negative numbers (F18).",
 "C09": "False for target = issuer (F14); proved exactly otherwise.",
 "C12": "False as stated (F7): the weight of a long chain is 1, not 0. Partial theorem: the weight is 2^(16-(factor+length-1)) down to 1.",
 "C15": "False for expiry times at or above 2^63 (F4); proved for trusts that the database regards as live.",
 "C17": "False from 2^63 seconds on (F18); proved below.",
 "C21": "False as stated (F15); proved when the trust is live for the database, the issuer has not revoked the recipient since, on the issuer's certificates nobody has revoked somebody after them or the recipient, and an issuer that is a root has its self-signed trust; examples show that each proviso is needed.",
 "C22": "Atomicity is false (F10); proved: the trusts are added one by one in chain order, each under its predecessor's key, up to the first failure.",
 "C28": "Exact for times below 2^63 seconds; beyond that it fails (C31_far_future_fails).",
 "C29": "False as stated (F6). Partial: the revocation stays unless a newer trust of the pair is submitted; and no replay before the newer trusts expire.",
 "C30": "False at now = expires_at (F5) and beyond 2^63; proved strictly before expiry, and that expired trusts are never returned.",
 "C31": "False for expiry >= 2^63 (F4); proved below, through any history.",
 "C34": "Only set_root changes roots and no root is ever lost: proved. That the latest call counts is false (F3); proved for the first registration.",
 "C04": "Certificates: on every graph. Weights: in release builds on every graph, in debug builds while the table has fewer than 2^32-16 relations.",
 "C40": "False for RSA keys of 256 bytes (F16); proved when the revoked key is not RSA, in particular always on wasm32.",
 "C41": "False for Secp256k1 (F1: the result of the verification is dropped); proved for Ed25519 and RSA.",
 "C46": "False for keys or signatures of 256 bytes and more (F12); proved exactly (iff) otherwise.",
 "C47": "False for chains of 256 trusts and more (F12); proved exactly (iff) otherwise.",
 "C49": "False (F13): every decoder panics on some inputs. Partial: the panicking inputs are characterised exactly (iff) for keys, signatures, trusts, certificates and texts, and no decoder loops.",
 "C53": "False as stated (F11): the appended trust is not verified. The exact result of issue_with_trust (C53_result) and its refusals (C53_refused) are proved; an empty certificate makes it panic (F13).",
 "C57": "False (F8): the origin of argument 1 is checked; C57_fails refutes both directions.",
 "C58": "False (F9): insert_cert accepts any timestamp; proved for all other calls except get_weight_from (F8).",
 "C71": "False when the presented issue time has a fraction of a second (F17); proved for whole seconds, i.e. for everything that comes through the service.",
 "C73": "False in formats such as JSON that write the key as a sequence (F19); proved for formats that keep byte strings.",
 "C74": "False only for insert_cert_raw on malformed text (F13); proved for the bodies of all other calls; the texts on which insert_cert_raw traps are characterised exactly (iff). That such a trap makes later calls trap is C108.",
 "C76": "False for revocations dated in the same second as the trust (F21); proved with 'at or after the revocation' in place of 'after', and in full for add_trust.",
 "C78": "False (F20, a consequence of F8): always refused, unless the issuer itself came from the clock; proved exactly when it answers.",
 "C79": "The expectation that no error means stored is false for an issuer without weight and for a pair with a relation dated in the same second (F10, F21); the exact behaviour is proved (C79_add_trust).",
 "C80": "The half about errors is false (F22): the root is set before the import is refused; the exact behaviour (C80_add_root_trust) and the half about success (C80_no_error) are proved.",
 "C81": "False for a trust of the same second (F21); the exact behaviour is proved (C81_revoke).",
 "C82": "Needs the resource bound stored relations + trusts + 16 < 2^32.",
 "C83": "The shipped certificates expired on 2025-01-25 (F23).",
 "C84": "Both ends are modelled (admin/index.ts and on_start.air); the JSON file between them is the identity.",
 "C86": "For node = caller the answer is affected by F14: any certificate of the caller counts.",
 "C87": "The hypothesis about older relations is needed because of F21; the example waits a second for this reason.",
 "C88": "The history theorem speaks of a moment with fewer than about 2^32 relations (the same resource bound as the weight theorems).",
 "C89": "The numbers of the FAQ are wrong for every such chain (F24, C89_faq_fails): for max_chain_len 4 they are 16, 8, 4, 2. The partial theorem gives the weights for every chain and every max_chain_len; the numbers of the FAQ are those of max_chain_len 3.",
 "C90": "False for T = A (F25): weight_from(A, A) is 0. The partial theorems cover every other target, give the answer of weight for all targets, and show that the steps of the README lead to the situation. Through the service get_weight_from is refused anyway (F8).",
 "C95": "Carrying is proved in full. The same weight is false (F26): revocations are not part of certificates, so on the new node a chain may count that is revoked on the first. Proved: never a lower weight, and the same weight if on the first node no key of the carried certificates has revoked another.",
 "C96": "False as stated because of F2 (C96_half_fails: a key of weight 2 confers 128). Proved when nobody before the issuer on these certificates has revoked the issuer. Without any proviso (C96_half_pardoned): at most half of the weight that the issuer would have if nobody had revoked it; the bound is attained in the refuting graph.",
 "C97": "The bound is false as stated because of F2 (C97_containment_fails). Proved when no key outside the set has revoked a key of the set; that other certificates stay (C97_untouched) is proved in full. Without any proviso (C97_containment_pardoned, C97_sybils_pardoned): the bound with the weight that the compromised key would have had if nobody had revoked it. Through the service C97_service, in full for times below 2^63.",
 "C103": "False as stated (F27): with n² + n + 2 relations a key can have n! certificates, all made by the owner of one trusted key, and a query executes at least as many SQL statements (C103_cost). C103_statements: exactly how many statements the question for certificates executes, namely 4 plus two for each trail of trusts ending at the key, wherever it begins, less one for each trust in the key. Proved: at most d^n certificates with n trusts after the root's, and at most 4 + 2(d + … + d^m) statements, if nobody is trusted by more than d keys and no trail is longer than m.",
 "C104": "False in full (F28): the RSA variant exists only on native targets and comes before Secp256k1, so formats that number variants (bincode) mix up the two between targets. Proved: any format within one target, formats that name variants between targets; reading never panics.",
 "C105": "Assumed of the libraries (ed25519_dalek, libsecp256k1, ring, SQLite): their error texts do not end with 'Key format is not supported'.",
 "C106": "Proved in full for verify. False for the texts of from_str and decode (F29): the number given as that of the trust is that of its first line, and a certificate with one trust is refused with 'must have at least 1 trust'. Proved for from_str: the line is that of the first unreadable trust.",
 "C107": "Machine and calls in Verif/Spec/ServiceMachine.lean. Hypothesis: fewer than 2^32 - 16 relations handed over (as in C99).",
 "C108": "False (F30): insert_cert_raw on a text of fewer than two lines traps inside with_tg and leaves the RefCell borrowed, so all calls that need the graph trap until the service is restarted. Proved: histories without such texts, and that a restart helps.",
 "C109": "False for add_root_trust (F31), which changes the graph twice: between the two changes others see a root without its self-signed trust. Proved for all other functions and any storage: each takes effect at the moment it returns, those still running have had no effect (C109_at_once_partial, C109_order_partial); C109_same_functions says that the programs executed at once are the functions of C75-C81.",
 "C110": "False in full (F32: C110_fails; C110_length_fails and C110_same_second_fails show that the further hypotheses are needed). Proved: telling everything as many times as there are messages always settles (C110_settles, for messages live at the time and of whole seconds); settled nodes have the same certificates in order, i.e. on which nobody has revoked a later key and which are not longer than the root allows, if times of relations of one pair differ; so keys with no other certificates have the same weight.",
 "C111": "False in full (F33: C111_fails): the documentation says that revocations count, but only the first key and the length of the certificates are looked at. Proved in full otherwise (C111_factor_partial; C111_answer_unique: the specification has one answer; C111_weight_partial: how it fits weight). Lengths from 2^32 - 16 on are excluded.",
 "C112": "False for RSA in native builds, where generate panics (F34: C112_fails). Proved for the other formats, and in full for WebAssembly builds (C112_wasm). Randomness is a parameter; that the source itself is fair is not the code's affair and not modelled.",
 "C113": "False in full because of F2 (C113_fails): the key goes on conferring weight through trusts it issued before it was shut out. Proved: everything else; it can stand on a certificate only immediately before the last key, by a trust stored before, until this trust expires.",
 "C114": "False in full (F35: C114_fails): revocations of strangers are stored, are returned by get_revocations, and stay for ever (C114_pile_up). Proved: nothing else is stored, and certificates, weights, what add_trust returns and the revocations by others are the same (weights for fewer than 2^32 - 16 relations; the calls not later than the query).",
 "C115": "Proved; weights for fewer than 2^32 - 16 relations.",
 "C116": "Proved; weights for fewer than 2^32 - 16 relations.",
 "C117": "False of add in full (F36: C117_fails). Proved for all other calls, and for add of certificates that can be imported (C82); the table must have fewer than 2^32 - 16 relations after the attempts.",
 "C118": "Proved. The table of the new node must stay below 2^32 - 16 relations and chains within the limit of 16 - f trusts after the root's. C118_order_matters shows that the certificates must come before the revocations (F2).",
 "C119": "Proved. Repairing needs fewer than 2^32 - 16 relations, certificates within the chain limit and no failing SQL statements. C119_not_revoked shows that a certificate with a revoked issuer, which is returned because of F2, cannot be added again.",
 "C68": "Proved. C68_x509_exactly characterises what is decoded by the encoding rules of X.690, C68_several_encodings records F37. The DER layer is that of the crate asn1_der, a dependency, modelled by these rules.",
 "C120": "Proved for the wasm32 build, which is the service. The new table must stay below 2^32 - 16 relations and chains within the limit of their roots.",
 "C121": "Renewal is proved for certificates on which nobody has revoked somebody after them and that are within max_chain_len (as C82).",
 "C122": "What the two elliptic-curve libraries print for a public key is a parameter.",
 "C123": "Proved, for dependencies that conform to the standards (Spec.Conforms): SHA-256 is FIPS 180-4, and the keys and signatures accepted by RFC 8032 are accepted. Both standards are written down in Spec/Sha2 and Spec/Ed25519, tested there on the published examples, and computed by the kernel for the fourteen signatures of the file. For the example the public key of its secret key is assumed to be computed as in RFC 8032.",
 "C124": "Proved if the honest keys are not Secp256k1 keys; that signatures are not forged is a hypothesis (Unforged) about the scheme of the key and not about the code, which is proved to check what the scheme checks and to bind issuer-independent fields unambiguously. False for Secp256k1 keys (C124_fails, finding F1): anybody can pass on the weight of a Secp256k1 root.",
 "C125": "Fewer than 2^32-16 trusts and revocations handed over, so that no count or row number overflows. Expiry dates below 2^63, as beyond that the store reads them as negative; the service on wasm (32 bit).",
 "C126": "Fewer than 2^32-16 trusts and revocations handed over, so that no count or row number overflows. That the key can still stand directly before the last key of a certificate is finding F2.",
 "C127": "Fewer than 2^32-16 trusts and revocations handed over, so that no count or row number overflows. Times below 2^63.",
 "C128": "Partial: damage is a row that cannot be read (a cell of the wrong type, a text that is no key, bytes that are no signature) or is gone. Rows with an empty text or empty bytes trap (C128_empty_fails), a root row without a readable key ends all answers about certificates and weights (C128_roots_fails), and rows changed into other readable ones are taken at their word, since signatures are not checked on reading (C128_altered_fails, F41; who checks the certificate notices, C130). C128_blocked_fails: the exception is real, a garbled row blocks revocation by its issuer for its key.",
 "C129": "Healthy database (no failing statements), fewer than 2^32-16 trusts and revocations handed over. Dates keep their side of 2^63, where SQLite takes them for negative (F4, F18).",
 "C130": "Proved for honest keys other than Secp256k1 whose holders revoke no RSA keys; false for Secp256k1 keys (C130_fails, finding F1), and a revocation of an RSA key may have the bytes of a trust (F16). The direction from genuine to accepted holds for all keys.",
 "C36": "False from 2^63 seconds on (F18, C36_queries_do_not_disturb_fails); proved in the order of times that the database uses, which is the usual one below 2^63.",
 "C69": "False from 2^63 seconds on (F18, C69_collect_composes_fails); proved in the order of times that the database uses, which is the usual one below 2^63.",
 "C70": "False from 2^63 seconds on (F18, C70_unrelated_keys_unaffected_fails); proved in the order of times that the database uses, which is the usual one below 2^63.",
 "C131": "C131_time reads a printed time back with a small reader of decimal numbers with a unit. C131_trust and C131_certificate are equivalences. C131_expired is about the error returned by Trust::verify, C131_expired_text says that the texts differ. The plain debug format {:?} is modelled, not the indented one {:#?}; the format of std's Duration is modelled from its documentation and source.",
 "C132": "The reader is proved to be the grammar of RFC 8259 (C132_json, both directions) and the records' fields exactly (C132_read). Round trips for the crate and the tool (C132_round_trip, C132_admin_file, C132_admin_file_order). The shipped files: C132_on_start, C132_distro. serde_json and JSON.stringify are modelled from their documentation. Numbers of JavaScript are taken to be exact, which they are below 2^53. The program that reads on_start.json on a node is not in the repository; it is taken to read records as the crate does.",
 "C133": "`C133_indistinguishable`: for two reachable databases with `Spec.SameContent` (the same stored relations, the same factor for every root), the answers to any later calls are pairwise `Spec.SameAnswer` and the contents are the same afterwards. Proved through the abstract machine of C99, whose state is a function of the content.",
 "C134": "Proved with the provisos of the statement (`C134_order`, `C134_roots`); beside the theorems the kernel shows that without each of them (an answer 0, two messages of the same second, an expired trust) the order does matter. `Spec.Absorbs` says what a set of messages makes of the content; it determines the result.",
 "C135": "C135_questions, C135_updates, C135_certificates; what the certificates cost is C103_statements. Weights: fewer than 2^32 - 16 relations are stored.",
 "C136": "C136_agree. In full under the conditions named in the statement.",
 "C137": "Proved without SQL failures (with failures a query may report one instead of an answer). C137_service: two answers of the service, on the target it runs on (wasm32), at a time below 2^63; SQL failures may occur, but the two calls must have succeeded.",
 "C139": "C139_distance, C139_neighbours, C139_at_most; through the service C139_service_at_most, C139_service_at_least. With revocations the exact weight is given by C10 with the certificates of C02; the local rule then fails (C96_half_fails).",
 "C140": "C140_revoke, C140_add_trust, C140_time; through the service C140_service_revoke, C140_service_trust. The exception for the last issuer is finding F2.",
 "C141": "C141_self_talk, C141_redundant. Roots are excluded rightly: the self-signed trust of a root is the beginning of its certificates.",
 "C142": "C142_upstream: for a set of keys S trusted by members only (Spec.Closed) and later calls that hand over only relations about keys outside S and make only keys outside S roots (Spec.Downstream): the same certificates (up to order), certificates from an issuer, revocations, weights and weights from an issuer for every member. Times of the later calls are at most the present moment; weights for fewer than 2^32-16 rows.",
 "C143": "C143_upstream: part (a); C143_self_talk: part (b). Both are about records of a run of the service (ServiceRun): what was handed over is read off the calls (Made, Op.Submits), roots off the owner's set_root calls (OwnerSet). Runs that hand over fewer than 2^32-16 relations.",
 "C144": "C144_until_expiry: the library; C144_service: the service, from the records it returned. Expiry dates are compared as the code does (as signed 64-bit numbers); the service part is stated for times below 2^63, where this is the plain order. The times of the calls in between are at most T. Weights for fewer than 2^32-16 rows or relations handed over.",
 "C145": "C145_texts: the accepted texts and what is read from them; C145_layout: line ends and the first two lines do not matter, for any text; C145_lists: lists of texts; C145_number_of_lines: texts refused for their number of lines (with fewer than two lines from_str panics, finding F13).",
 "C146": "C146_keys_and_signatures, C146_trusts, C146_certificates (reading: after the trusts anything may follow), C146_certificates_written, C146_signed, C146_records, C146_key_pairs, C146_json (the values; how JSON texts are read is not part of it). Longer keys and signatures (RSA) do not fit: their trusts cannot be written (finding F12). C146_rsa_records: the peer ids of RSA keys of 256 to 16359 bytes (2048 bits are 270 bytes), which cannot be read back.",
 "C147": "C147_reason (exactly when a certificate of one node is missing at another), C147_lower_weight, C147_more_trust, C147_service. Spec.Obstacle lists the reasons.",
 "C148": "C148_exported. Proved for the target the service runs on (wasm32). A revocation dated in the same second as something already stored about the two keys is dropped although revoke reports success (finding F21); hence 'older'.",
 "C149": "C149_cut_off. Proved for the target the service runs on (wasm32) and for fewer than 2^32 - 16 relations handed to the service. A revocation dated in the same second as something already stored about the two keys is dropped although revoke reports success (finding F21); hence 'older'. The exception for the issuer of the last trust is finding F2.",
 "C150": "C150_certified. Proved for fewer than 2^32 - 16 relations handed to the service, and for expiry dates below 2^63 (later ones are collected as if expired). A trust dated in the same second as something already stored about the two keys is dropped although add_trust reports success (finding F21); hence 'older'."
}