{
 "claims": [
  {
   "property": "C01",
   "status": "proved",
   "theorems": [
    "TG.C01_rooted_linked_chains"
   ],
   "note": ""
  },
  {
   "property": "C02",
   "status": "proved",
   "theorems": [
    "TG.C02_complete_exactly_once"
   ],
   "note": ""
  },
  {
   "property": "C03",
   "status": "proved",
   "theorems": [
    "TG.C03_shortest_first"
   ],
   "note": ""
  },
  {
   "property": "C04",
   "status": "proved",
   "theorems": [
    "TG.C04_search_returns",
    "TG.C04_weight_returns"
   ],
   "note": "Certificates: on every graph. Weights: in release builds on every graph, in debug builds while the table has fewer than 2^32-16 relations."
  },
  {
   "property": "C05",
   "status": "proved",
   "theorems": [
    "TG.C05_no_key_revisited"
   ],
   "note": ""
  },
  {
   "property": "C06",
   "status": "proved",
   "theorems": [
    "TG.C06_revoker_of_target_absent"
   ],
   "note": ""
  },
  {
   "property": "C07",
   "status": "partial",
   "theorems": [
    "TG.C07_revocation_on_chain_partial",
    "TG.C07_revocation_on_chain_fails"
   ],
   "note": "False as stated (finding F2): C07_..._fails gives a graph where the revocation by the root of the last trust's issuer is ignored. The partial theorem covers every other key of the chain."
  },
  {
   "property": "C08",
   "status": "partial",
   "theorems": [
    "TG.C08_returned_verify_partial",
    "TG.C08_returned_verify_fails"
   ],
   "note": "Holds for times below 2^63 seconds; beyond that the database compares seconds as negative numbers (F18)."
  },
  {
   "property": "C09",
   "status": "partial",
   "theorems": [
    "TG.C09_from_selects_partial",
    "TG.C09_from_issuers_partial",
    "TG.C09_from_selects_fails"
   ],
   "note": "False for target = issuer (F14); proved exactly otherwise."
  },
  {
   "property": "C10",
   "status": "proved",
   "theorems": [
    "TG.C10_weight_is_best",
    "TG.C10_root_weight"
   ],
   "note": ""
  },
  {
   "property": "C11",
   "status": "proved",
   "theorems": [
    "TG.C11_zero_or_power_of_two"
   ],
   "note": ""
  },
  {
   "property": "C12",
   "status": "partial",
   "theorems": [
    "TG.C12_weight_of_history_partial",
    "TG.C12_max_chain_len_fails",
    "TG.C12_max_chain_len_partial"
   ],
   "note": "False as stated (F7): the weight of a long chain is 1, not 0. Partial theorem: the weight is 2^(16-(factor+length-1)) down to 1."
  },
  {
   "property": "C13",
   "status": "proved",
   "theorems": [
    "TG.C13_weight_from_le_weight"
   ],
   "note": ""
  },
  {
   "property": "C14",
   "status": "proved",
   "theorems": [
    "TG.C14_weight_queries_succeed",
    "TG.C14_no_overflow",
    "TG.C14_cert_queries_succeed"
   ],
   "note": ""
  },
  {
   "property": "C15",
   "status": "partial",
   "theorems": [
    "TG.C15_adding_never_lowers_partial",
    "TG.C15_adding_never_lowers_fails"
   ],
   "note": "False for expiry times at or above 2^63 (F4); proved for trusts that the database regards as live."
  },
  {
   "property": "C16",
   "status": "proved",
   "theorems": [
    "TG.C16_revoking_never_raises"
   ],
   "note": ""
  },
  {
   "property": "C17",
   "status": "partial",
   "theorems": [
    "TG.C17_time_never_raises_partial",
    "TG.C17_time_never_raises_fails"
   ],
   "note": "False from 2^63 seconds on (F18); proved below."
  },
  {
   "property": "C18",
   "status": "proved",
   "theorems": [
    "TG.C18_invalid_trusts_refused"
   ],
   "note": ""
  },
  {
   "property": "C19",
   "status": "proved",
   "theorems": [
    "TG.C19_no_weight_no_trust",
    "TG.C19_zero_stores_nothing"
   ],
   "note": ""
  },
  {
   "property": "C20",
   "status": "proved",
   "theorems": [
    "TG.C20_returned_weight"
   ],
   "note": ""
  },
  {
   "property": "C21",
   "status": "partial",
   "theorems": [
    "TG.C21_returned_weight_reached_partial",
    "TG.C21_returned_weight_reached_fails"
   ],
   "note": "False as stated (F15); proved when the trust is live for the database, the issuer has not revoked the recipient since, on the issuer's certificates nobody has revoked somebody after them or the recipient, and an issuer that is a root has its self-signed trust; examples show that each proviso is needed."
  },
  {
   "property": "C22",
   "status": "partial",
   "theorems": [
    "TG.C22_add_in_order_partial",
    "TG.C22_add_atomic_fails"
   ],
   "note": "Atomicity is false (F10); proved: the trusts are added one by one in chain order, each under its predecessor's key, up to the first failure."
  },
  {
   "property": "C23",
   "status": "proved",
   "theorems": [
    "TG.C23_one_relation_per_pair"
   ],
   "note": ""
  },
  {
   "property": "C24",
   "status": "proved",
   "theorems": [
    "TG.C24_latest_wins",
    "TG.C24_onto"
   ],
   "note": ""
  },
  {
   "property": "C25",
   "status": "proved",
   "theorems": [
    "TG.C25_order_irrelevant",
    "TG.C25_onto"
   ],
   "note": ""
  },
  {
   "property": "C26",
   "status": "proved",
   "theorems": [
    "TG.C26_idempotent"
   ],
   "note": ""
  },
  {
   "property": "C27",
   "status": "proved",
   "theorems": [
    "TG.C27_stale_trust_changes_nothing"
   ],
   "note": ""
  },
  {
   "property": "C28",
   "status": "partial",
   "theorems": [
    "TG.C28_collects_exactly_expired_partial"
   ],
   "note": "Exact for times below 2^63 seconds; beyond that it fails (C31_far_future_fails)."
  },
  {
   "property": "C29",
   "status": "partial",
   "theorems": [
    "TG.C29_revocation_stays_partial",
    "TG.C29_no_replay_partial",
    "TG.C29_no_replay_fails"
   ],
   "note": "False as stated (F6). Partial: the revocation stays unless a newer trust of the pair is submitted; and no replay before the newer trusts expire."
  },
  {
   "property": "C30",
   "status": "partial",
   "theorems": [
    "TG.C30_counts_until_expiry_partial",
    "TG.C30_counts_until_expiry_fails"
   ],
   "note": "False at now = expires_at (F5) and beyond 2^63; proved strictly before expiry, and that expired trusts are never returned."
  },
  {
   "property": "C31",
   "status": "partial",
   "theorems": [
    "TG.C31_far_future_partial",
    "TG.C31_far_future_fails"
   ],
   "note": "False for expiry >= 2^63 (F4); proved below, through any history."
  },
  {
   "property": "C32",
   "status": "proved",
   "theorems": [
    "TG.C32_rows_roundtrip",
    "TG.C32_every_row_readable"
   ],
   "note": ""
  },
  {
   "property": "C33",
   "status": "proved",
   "theorems": [
    "TG.C33_stored_is_verified"
   ],
   "note": ""
  },
  {
   "property": "C34",
   "status": "partial",
   "theorems": [
    "TG.C34_only_set_root",
    "TG.C34_roots_never_lost",
    "TG.C34_first_set_root_partial",
    "TG.C34_latest_set_root_fails"
   ],
   "note": "Only set_root changes roots and no root is ever lost: proved. That the latest call counts is false (F3); proved for the first registration."
  },
  {
   "property": "C35",
   "status": "proved",
   "theorems": [
    "TG.C35_failures_are_reported",
    "TG.C35_fail_stop",
    "TG.C35_failed_call_changes_nothing",
    "TG.C35_failed_add_is_prefix",
    "TG.C35_invariants_hold"
   ],
   "note": ""
  },
  {
   "property": "C36",
   "status": "partial",
   "theorems": [
    "TG.C36_queries_do_not_disturb_fails",
    "TG.C36_queries_do_not_disturb_partial"
   ],
   "note": "False from 2^63 seconds on (F18, C36_queries_do_not_disturb_fails); proved in the order of times that the database uses, which is the usual one below 2^63."
  },
  {
   "property": "C37",
   "status": "proved",
   "theorems": [
    "TG.C37_revocations_exact"
   ],
   "note": ""
  },
  {
   "property": "C38",
   "status": "proved",
   "theorems": [
    "TG.C38_verify_decides",
    "TG.C38_verify_genuine",
    "TG.C38_expired_first",
    "TG.C38_verify_total"
   ],
   "note": ""
  },
  {
   "property": "C39",
   "status": "proved",
   "theorems": [
    "TG.C39_trust_message_binds",
    "TG.C39_revocation_message_binds",
    "TG.C39_trust_hash_binds",
    "TG.C39_revocation_hash_binds"
   ],
   "note": ""
  },
  {
   "property": "C40",
   "status": "partial",
   "theorems": [
    "TG.C40_no_confusion_partial",
    "TG.C40_no_confusion_wasm",
    "TG.C40_no_confusion_fails"
   ],
   "note": "False for RSA keys of 256 bytes (F16); proved when the revoked key is not RSA, in particular always on wasm32."
  },
  {
   "property": "C41",
   "status": "partial",
   "theorems": [
    "TG.C41_genuine_accepted",
    "TG.C41_verify_sound_partial",
    "TG.C41_secp256k1_accepts_everything",
    "TG.C41_verify_sound_fails"
   ],
   "note": "False for Secp256k1 (F1: the result of the verification is dropped); proved for Ed25519 and RSA."
  },
  {
   "property": "C42",
   "status": "proved",
   "theorems": [
    "TG.C42_sign_genuine",
    "TG.C42_created_trust_verifies",
    "TG.C42_created_revocation_verifies",
    "TG.C42_sign_total"
   ],
   "note": ""
  },
  {
   "property": "C43",
   "status": "proved",
   "theorems": [
    "TG.C43_label_irrelevant",
    "TG.C43_relabel"
   ],
   "note": ""
  },
  {
   "property": "C44",
   "status": "proved",
   "theorems": [
    "TG.C44_roundtrip",
    "TG.C44_injective",
    "TG.C44_canonical",
    "TG.C44_text"
   ],
   "note": ""
  },
  {
   "property": "C45",
   "status": "proved",
   "theorems": [
    "TG.C45_roundtrip",
    "TG.C45_canonical",
    "TG.C45_from_bytes"
   ],
   "note": ""
  },
  {
   "property": "C46",
   "status": "partial",
   "theorems": [
    "TG.C46_roundtrip_partial",
    "TG.C46_short_keys",
    "TG.C46_canonical",
    "TG.C46_roundtrip_fails"
   ],
   "note": "False for keys or signatures of 256 bytes and more (F12); proved exactly (iff) otherwise."
  },
  {
   "property": "C47",
   "status": "partial",
   "theorems": [
    "TG.C47_roundtrip_partial",
    "TG.C47_no_confusion",
    "TG.C47_roundtrip_fails"
   ],
   "note": "False for chains of 256 trusts and more (F12); proved exactly (iff) otherwise."
  },
  {
   "property": "C48",
   "status": "proved",
   "theorems": [
    "TG.C48_text_roundtrip",
    "TG.C48_serde_roundtrip",
    "TG.C48_text_injective"
   ],
   "note": ""
  },
  {
   "property": "C49",
   "status": "partial",
   "theorems": [
    "TG.C49_public_key_partial",
    "TG.C49_signature_partial",
    "TG.C49_trust_partial",
    "TG.C49_certificate_partial",
    "TG.C49_text_partial",
    "TG.C49_no_panic_fails",
    "TG.C49_key_text_partial",
    "TG.C49_key_value_partial",
    "TG.C49_certificate_exact_partial",
    "TG.C49_trust_text_partial",
    "TG.C49_text_exact_partial"
   ],
   "note": "False (F13): every decoder panics on some inputs. Partial: the panicking inputs are characterised exactly (iff) for keys, signatures, trusts, certificates and texts, and no decoder loops."
  },
  {
   "property": "C50",
   "status": "proved",
   "theorems": [
    "TG.C50_roundtrip",
    "TG.C50_canonical",
    "TG.C50_keys_differ"
   ],
   "note": ""
  },
  {
   "property": "C51",
   "status": "proved",
   "theorems": [
    "TG.C51_verify_decides",
    "TG.C51_verify_total",
    "TG.C51_verify_mono"
   ],
   "note": ""
  },
  {
   "property": "C52",
   "status": "proved",
   "theorems": [
    "TG.C52_issue_root",
    "TG.C52_issue_result",
    "TG.C52_issued_verifies",
    "TG.C52_issue_inverted_dates",
    "TG.C52_issue_unknown_key",
    "TG.C52_refused"
   ],
   "note": ""
  },
  {
   "property": "C53",
   "status": "partial",
   "theorems": [
    "TG.C53_result",
    "TG.C53_issued_verifies_partial",
    "TG.C53_issued_verifies_fails",
    "TG.C53_refused"
   ],
   "note": "False as stated (F11): the appended trust is not verified. The exact result of issue_with_trust (C53_result) and its refusals (C53_refused) are proved; an empty certificate makes it panic (F13)."
  },
  {
   "property": "C54",
   "status": "proved",
   "theorems": [
    "TG.C54_new_from_root_trust",
    "TG.C54_refused"
   ],
   "note": ""
  },
  {
   "property": "C55",
   "status": "proved",
   "theorems": [
    "TG.C55_only_owner",
    "TG.C55_roots_change"
   ],
   "note": ""
  },
  {
   "property": "C56",
   "status": "proved",
   "theorems": [
    "TG.C56_foreign_time_refused",
    "TG.C56_only_host_time"
   ],
   "note": ""
  },
  {
   "property": "C57",
   "status": "partial",
   "theorems": [
    "TG.C57_checks_the_issuer_partial",
    "TG.ServiceDemo.C57_fails"
   ],
   "note": "False (F8): the origin of argument 1 is checked; C57_fails refutes both directions."
  },
  {
   "property": "C58",
   "status": "partial",
   "theorems": [
    "TG.C58_only_host_time_partial",
    "TG.ServiceDemo.C58_fails"
   ],
   "note": "False (F9): insert_cert accepts any timestamp; proved for all other calls except get_weight_from (F8)."
  },
  {
   "property": "C59",
   "status": "proved",
   "theorems": [
    "TG.C59_future_trust_refused",
    "TG.C59_future_revocation_refused"
   ],
   "note": ""
  },
  {
   "property": "C60",
   "status": "proved",
   "theorems": [
    "TG.C60_trust_roundtrip",
    "TG.C60_revocation_roundtrip",
    "TG.C60_certificate_roundtrip",
    "TG.C60_wasm_keys"
   ],
   "note": ""
  },
  {
   "property": "C61",
   "status": "proved",
   "theorems": [
    "TG.C61_trust_flow",
    "TG.C61_revocation_flow"
   ],
   "note": ""
  },
  {
   "property": "C62",
   "status": "proved",
   "theorems": [
    "TG.C62_result_records",
    "TG.C62_success_iff"
   ],
   "note": ""
  },
  {
   "property": "C63",
   "status": "proved",
   "theorems": [
    "TG.C63_peer_id_roundtrip",
    "TG.C63_peer_ids_differ"
   ],
   "note": ""
  },
  {
   "property": "C64",
   "status": "proved",
   "theorems": [
    "TG.C64_host_certs",
    "TG.C64_host_certs_from"
   ],
   "note": ""
  },
  {
   "property": "C65",
   "status": "proved",
   "theorems": [
    "TG.C65_is_fluence_peer"
   ],
   "note": ""
  },
  {
   "property": "C66",
   "status": "proved",
   "theorems": [
    "TG.C66_hash_consistent",
    "TG.C66_hash_slice_consistent"
   ],
   "note": ""
  },
  {
   "property": "C67",
   "status": "proved",
   "theorems": [
    "TG.C67_vec_exactly",
    "TG.C67_secret_exactly",
    "TG.C67_refused",
    "TG.C67_vec_roundtrip",
    "TG.C67_vec_defined",
    "TG.C67_secret_roundtrip",
    "TG.C67_format_byte",
    "TG.C67_format_text",
    "TG.C67_format_public"
   ],
   "note": ""
  },
  {
   "property": "C68",
   "status": "proved",
   "theorems": [
    "TG.C68_x509_roundtrip",
    "TG.C68_x509_exactly",
    "TG.C68_several_encodings"
   ],
   "note": "Proved. C68_x509_exactly characterises what is decoded by the encoding rules of X.690, C68_several_encodings records F37. The DER layer is that of the crate asn1_der, a dependency, modelled by these rules."
  },
  {
   "property": "C69",
   "status": "partial",
   "theorems": [
    "TG.C69_collect_composes_fails",
    "TG.C69_collect_composes_partial",
    "TG.C69_ordinary_times"
   ],
   "note": "False from 2^63 seconds on (F18, C69_collect_composes_fails); proved in the order of times that the database uses, which is the usual one below 2^63."
  },
  {
   "property": "C70",
   "status": "partial",
   "theorems": [
    "TG.C70_unrelated_keys_unaffected_fails",
    "TG.C70_unrelated_keys_unaffected_partial"
   ],
   "note": "False from 2^63 seconds on (F18, C70_unrelated_keys_unaffected_fails); proved in the order of times that the database uses, which is the usual one below 2^63."
  },
  {
   "property": "C71",
   "status": "partial",
   "theorems": [
    "TG.C71_override_partial",
    "TG.ProvenanceDemo.C71_override_fails"
   ],
   "note": "False when the presented issue time has a fraction of a second (F17); proved for whole seconds, i.e. for everything that comes through the service."
  },
  {
   "property": "C72",
   "status": "proved",
   "theorems": [
    "TG.C72_provenance",
    "TG.C72_nothing_forged"
   ],
   "note": ""
  },
  {
   "property": "C73",
   "status": "partial",
   "theorems": [
    "TG.C73_serde_partial",
    "TG.C73_serde_fails"
   ],
   "note": "False in formats such as JSON that write the key as a sequence (F19); proved for formats that keep byte strings."
  },
  {
   "property": "C74",
   "status": "partial",
   "theorems": [
    "TG.C74_no_trap_partial",
    "TG.C74_raw_partial",
    "TG.C74_raw_exact_partial",
    "TG.ServiceDemo.C74_no_trap_fails"
   ],
   "note": "False only for insert_cert_raw on malformed text (F13); proved for the bodies of all other calls; the texts on which insert_cert_raw traps are characterised exactly (iff). That such a trap makes later calls trap is C108."
  },
  {
   "property": "C75",
   "status": "proved",
   "theorems": [
    "TG.C75_certificate_queries",
    "TG.C75_other_queries",
    "TG.C75_updates",
    "TG.C75_verify_trust",
    "TG.C75_get_all_certs_end_to_end"
   ],
   "note": ""
  },
  {
   "property": "C76",
   "status": "partial",
   "theorems": [
    "TG.C76_revoke_takes_effect_partial",
    "TG.C76_add_trust_takes_effect",
    "TG.C76_revoke_takes_effect_fails"
   ],
   "note": "False for revocations dated in the same second as the trust (F21); proved with 'at or after the revocation' in place of 'after', and in full for add_trust."
  },
  {
   "property": "C77",
   "status": "proved",
   "theorems": [
    "TG.C77_queries",
    "TG.C77_host_queries",
    "TG.C77_insert_and_verify"
   ],
   "note": ""
  },
  {
   "property": "C78",
   "status": "partial",
   "theorems": [
    "TG.C78_get_weight_from_partial",
    "TG.AquaDemo.C78_get_weight_from_fails"
   ],
   "note": "False (F20, a consequence of F8): always refused, unless the issuer itself came from the clock; proved exactly when it answers."
  },
  {
   "property": "C79",
   "status": "partial",
   "theorems": [
    "TG.C79_issue_reads_only",
    "TG.C79_add_trust",
    "TG.C79_sig_error",
    "TG.C79_no_error_partial",
    "TG.AquaDemo.C79_add_trust_fails"
   ],
   "note": "The expectation that no error means stored is false for an issuer without weight and for a pair with a relation dated in the same second (F10, F21); the exact behaviour is proved (C79_add_trust)."
  },
  {
   "property": "C80",
   "status": "partial",
   "theorems": [
    "TG.C80_add_root_trust",
    "TG.C80_no_error",
    "TG.AquaDemo.C80_add_root_trust_fails"
   ],
   "note": "The half about errors is false (F22): the root is set before the import is refused; the exact behaviour (C80_add_root_trust) and the half about success (C80_no_error) are proved."
  },
  {
   "property": "C81",
   "status": "partial",
   "theorems": [
    "TG.C81_revoke",
    "TG.C81_no_error_partial",
    "TG.AquaDemo.C81_revoke_fails"
   ],
   "note": "False for a trust of the same second (F21); the exact behaviour is proved (C81_revoke)."
  },
  {
   "property": "C82",
   "status": "proved",
   "theorems": [
    "TG.C82_import",
    "TG.C82_import_exactly",
    "TG.C82_import_all"
   ],
   "note": "Needs the resource bound stored relations + trusts + 16 < 2^32."
  },
  {
   "property": "C83",
   "status": "proved",
   "theorems": [
    "TG.C83_on_start",
    "TG.C83_on_start_expired",
    "TG.C83_not_owner"
   ],
   "note": "The shipped certificates expired on 2025-01-25 (F23)."
  },
  {
   "property": "C84",
   "status": "proved",
   "theorems": [
    "TG.C84_bootstrap"
   ],
   "note": "Both ends are modelled (admin/index.ts and on_start.air); the JSON file between them is the identity."
  },
  {
   "property": "C85",
   "status": "proved",
   "theorems": [
    "TG.C85_restart_keeps",
    "TG.C85_restart_adds_only"
   ],
   "note": ""
  },
  {
   "property": "C86",
   "status": "proved",
   "theorems": [
    "TG.C86_decides",
    "TG.C86_revoked"
   ],
   "note": "For node = caller the answer is affected by F14: any certificate of the caller counts."
  },
  {
   "property": "C87",
   "status": "proved",
   "theorems": [
    "TG.C87_permit",
    "TG.C87_forbid"
   ],
   "note": "The hypothesis about older relations is needed because of F21; the example waits a second for this reason."
  },
  {
   "property": "C88",
   "status": "proved",
   "theorems": [
    "TG.C88_delegation",
    "TG.C88_every_trust"
   ],
   "note": "The history theorem speaks of a moment with fewer than about 2^32 relations (the same resource bound as the weight theorems)."
  },
  {
   "property": "C89",
   "status": "partial",
   "theorems": [
    "TG.C89_weights_along_chain_partial",
    "TG.C89_faq_fails",
    "TG.C89_faq_root_3_partial"
   ],
   "note": "The numbers of the FAQ are wrong for every such chain (F24, C89_faq_fails): for max_chain_len 4 they are 16, 8, 4, 2. The partial theorem gives the weights for every chain and every max_chain_len; the numbers of the FAQ are those of max_chain_len 3."
  },
  {
   "property": "C90",
   "status": "partial",
   "theorems": [
    "TG.C90_membership_partial",
    "TG.C90_authority_fails",
    "TG.C90_steps_partial"
   ],
   "note": "False for T = A (F25): weight_from(A, A) is 0. The partial theorems cover every other target, give the answer of weight for all targets, and show that the steps of the README lead to the situation. Through the service get_weight_from is refused anyway (F8)."
  },
  {
   "property": "C91",
   "status": "proved",
   "theorems": [
    "TG.C91_grant",
    "TG.C91_revoked",
    "TG.C91_root_trust_needed"
   ],
   "note": ""
  },
  {
   "property": "C92",
   "status": "proved",
   "theorems": [
    "TG.C92_example_output"
   ],
   "note": ""
  },
  {
   "property": "C93",
   "status": "proved",
   "theorems": [
    "TG.C93_example_after_bootstrap"
   ],
   "note": ""
  },
  {
   "property": "C94",
   "status": "proved",
   "theorems": [
    "TG.C94_roundtrip",
    "TG.C94_roundtrip_libp2p",
    "TG.C94_same_identity"
   ],
   "note": ""
  },
  {
   "property": "C95",
   "status": "partial",
   "theorems": [
    "TG.C95_carry",
    "TG.C95_weight_partial",
    "TG.C95_weight_fails"
   ],
   "note": "Carrying is proved in full. The same weight is false (F26): revocations are not part of certificates, so on the new node a chain may count that is revoked on the first. Proved: never a lower weight, and the same weight if on the first node no key of the carried certificates has revoked another."
  },
  {
   "property": "C96",
   "status": "partial",
   "theorems": [
    "TG.C96_half_partial",
    "TG.C96_half_fails",
    "TG.C96_half_pardoned"
   ],
   "note": "False as stated because of F2 (C96_half_fails: a key of weight 2 confers 128). Proved when nobody before the issuer on these certificates has revoked the issuer. Without any proviso (C96_half_pardoned): at most half of the weight that the issuer would have if nobody had revoked it; the bound is attained in the refuting graph."
  },
  {
   "property": "C97",
   "status": "partial",
   "theorems": [
    "TG.C97_containment_partial",
    "TG.C97_sybils_partial",
    "TG.C97_untouched",
    "TG.C97_service",
    "TG.C97_containment_fails",
    "TG.C97_containment_pardoned",
    "TG.C97_sybils_pardoned"
   ],
   "note": "The bound is false as stated because of F2 (C97_containment_fails). Proved when no key outside the set has revoked a key of the set; that other certificates stay (C97_untouched) is proved in full. Without any proviso (C97_containment_pardoned, C97_sybils_pardoned): the bound with the weight that the compromised key would have had if nobody had revoked it. Through the service C97_service, in full for times below 2^63."
  },
  {
   "property": "C98",
   "status": "proved",
   "theorems": [
    "TG.C98_roundtrip",
    "TG.C98_canonical"
   ],
   "note": ""
  },
  {
   "property": "C99",
   "status": "proved",
   "theorems": [
    "TG.C99_refines",
    "TG.C99_determined"
   ],
   "note": ""
  },
  {
   "property": "C100",
   "status": "proved",
   "theorems": [
    "TG.C100_wiped",
    "TG.C100_rejected_untouched",
    "TG.C100_right_key"
   ],
   "note": ""
  },
  {
   "property": "C101",
   "status": "proved",
   "theorems": [
    "TG.C101_sql",
    "TG.C101_machine",
    "TG.C101_restart",
    "TG.C101_starts"
   ],
   "note": ""
  },
  {
   "property": "C102",
   "status": "proved",
   "theorems": [
    "TG.C102_any_storage",
    "TG.C102_sqlite"
   ],
   "note": ""
  },
  {
   "property": "C103",
   "status": "partial",
   "theorems": [
    "TG.C103_blowup_fails",
    "TG.C103_bound_partial",
    "TG.C103_cost",
    "TG.C103_statements",
    "TG.C103_statements_partial"
   ],
   "note": "False as stated (F27): with n\u00b2 + n + 2 relations a key can have n! certificates, all made by the owner of one trusted key, and a query executes at least as many SQL statements (C103_cost). C103_statements: exactly how many statements the question for certificates executes, namely 4 plus two for each trail of trusts ending at the key, wherever it begins, less one for each trust in the key. Proved: at most d^n certificates with n trusts after the root's, and at most 4 + 2(d + \u2026 + d^m) statements, if nobody is trusted by more than d keys and no trail is longer than m."
  },
  {
   "property": "C104",
   "status": "partial",
   "theorems": [
    "TG.C104_serde_partial",
    "TG.C104_targets_partial",
    "TG.C104_targets_fails",
    "TG.C104_total",
    "TG.C104_fields",
    "TG.C104_times"
   ],
   "note": "False in full (F28): the RSA variant exists only on native targets and comes before Secp256k1, so formats that number variants (bincode) mix up the two between targets. Proved: any format within one target, formats that name variants between targets; reading never panics."
  },
  {
   "property": "C105",
   "status": "proved",
   "theorems": [
    "TG.C105_reason",
    "TG.C105_success"
   ],
   "note": "Assumed of the libraries (ed25519_dalek, libsecp256k1, ring, SQLite): their error texts do not end with 'Key format is not supported'."
  },
  {
   "property": "C106",
   "status": "partial",
   "theorems": [
    "TG.C106_shown",
    "TG.C106_verify",
    "TG.C106_from_str_partial",
    "TG.C106_number_fails",
    "TG.C106_at_least_one_fails"
   ],
   "note": "Proved in full for verify. False for the texts of from_str and decode (F29): the number given as that of the trust is that of its first line, and a certificate with one trust is refused with 'must have at least 1 trust'. Proved for from_str: the line is that of the first unreadable trust."
  },
  {
   "property": "C107",
   "status": "proved",
   "theorems": [
    "TG.C107_service",
    "TG.C107_objections",
    "TG.C107_determined"
   ],
   "note": "Machine and calls in Verif/Spec/ServiceMachine.lean. Hypothesis: fewer than 2^32 - 16 relations handed over (as in C99)."
  },
  {
   "property": "C108",
   "status": "partial",
   "theorems": [
    "TG.C108_stuck_fails",
    "TG.C108_records_partial",
    "TG.C108_restart_partial"
   ],
   "note": "False (F30): insert_cert_raw on a text of fewer than two lines traps inside with_tg and leaves the RefCell borrowed, so all calls that need the graph trap until the service is restarted. Proved: histories without such texts, and that a restart helps."
  },
  {
   "property": "C109",
   "status": "partial",
   "theorems": [
    "TG.C109_at_once_partial",
    "TG.C109_order_partial",
    "TG.C109_same_functions",
    "TG.InterleavingDemo.C109_fails"
   ],
   "note": "False for add_root_trust (F31), which changes the graph twice: between the two changes others see a root without its self-signed trust. Proved for all other functions and any storage: each takes effect at the moment it returns, those still running have had no effect (C109_at_once_partial, C109_order_partial); C109_same_functions says that the programs executed at once are the functions of C75-C81."
  },
  {
   "property": "C110",
   "status": "partial",
   "theorems": [
    "TG.C110_certificates_partial",
    "TG.C110_weight_partial",
    "TG.C110_settles",
    "TG.C110_exchange_partial",
    "TG.C110_fails",
    "TG.C110_length_fails",
    "TG.C110_same_second_fails"
   ],
   "note": "False in full (F32: C110_fails; C110_length_fails and C110_same_second_fails show that the further hypotheses are needed). Proved: telling everything as many times as there are messages always settles (C110_settles, for messages live at the time and of whole seconds); settled nodes have the same certificates in order, i.e. on which nobody has revoked a later key and which are not longer than the root allows, if times of relations of one pair differ; so keys with no other certificates have the same weight."
  },
  {
   "property": "C111",
   "status": "partial",
   "theorems": [
    "TG.C111_factor_partial",
    "TG.C111_answer_unique",
    "TG.C111_weight_partial",
    "TG.C111_fails"
   ],
   "note": "False in full (F33: C111_fails): the documentation says that revocations count, but only the first key and the length of the certificates are looked at. Proved in full otherwise (C111_factor_partial; C111_answer_unique: the specification has one answer; C111_weight_partial: how it fits weight). Lengths from 2^32 - 16 on are excluded."
  },
  {
   "property": "C112",
   "status": "partial",
   "theorems": [
    "TG.C112_generate_partial",
    "TG.C112_uniform_partial",
    "TG.C112_waiting_partial",
    "TG.C112_every_pair_partial",
    "TG.C112_usable_partial",
    "TG.C112_fails",
    "TG.C112_wasm"
   ],
   "note": "False for RSA in native builds, where generate panics (F34: C112_fails). Proved for the other formats, and in full for WebAssembly builds (C112_wasm). Randomness is a parameter; that the source itself is fair is not the code's affair and not modelled."
  },
  {
   "property": "C113",
   "status": "partial",
   "theorems": [
    "TG.C113_shut_out_partial",
    "TG.C113_fails"
   ],
   "note": "False in full because of F2 (C113_fails): the key goes on conferring weight through trusts it issued before it was shut out. Proved: everything else; it can stand on a certificate only immediately before the last key, by a trust stored before, until this trust expires."
  },
  {
   "property": "C114",
   "status": "partial",
   "theorems": [
    "TG.C114_strangers_partial",
    "TG.C114_pile_up",
    "TG.C114_fails"
   ],
   "note": "False in full (F35: C114_fails): revocations of strangers are stored, are returned by get_revocations, and stay for ever (C114_pile_up). Proved: nothing else is stored, and certificates, weights, what add_trust returns and the revocations by others are the same (weights for fewer than 2^32 - 16 relations; the calls not later than the query)."
  },
  {
   "property": "C115",
   "status": "proved",
   "theorems": [
    "TG.C115_set_root_adds"
   ],
   "note": "Proved; weights for fewer than 2^32 - 16 relations."
  },
  {
   "property": "C116",
   "status": "proved",
   "theorems": [
    "TG.C116_own_weight"
   ],
   "note": "Proved; weights for fewer than 2^32 - 16 relations."
  },
  {
   "property": "C117",
   "status": "partial",
   "theorems": [
    "TG.C117_repeat_partial",
    "TG.C117_fails"
   ],
   "note": "False of add in full (F36: C117_fails). Proved for all other calls, and for add of certificates that can be imported (C82); the table must have fewer than 2^32 - 16 relations after the attempts."
  },
  {
   "property": "C118",
   "status": "proved",
   "theorems": [
    "TG.C118_carry_all",
    "TG.C118_order_matters"
   ],
   "note": "Proved. The table of the new node must stay below 2^32 - 16 relations and chains within the limit of 16 - f trusts after the root's. C118_order_matters shows that the certificates must come before the revocations (F2)."
  },
  {
   "property": "C119",
   "status": "proved",
   "theorems": [
    "TG.C119_harm",
    "TG.C119_repair",
    "TG.C119_not_revoked"
   ],
   "note": "Proved. Repairing needs fewer than 2^32 - 16 relations, certificates within the chain limit and no failing SQL statements. C119_not_revoked shows that a certificate with a revoked issuer, which is returned because of F2, cannot be added again."
  },
  {
   "property": "C120",
   "status": "proved",
   "theorems": [
    "TG.C120_mirror"
   ],
   "note": "Proved for the wasm32 build, which is the service. The new table must stay below 2^32 - 16 relations and chains within the limit of their roots."
  },
  {
   "property": "C121",
   "status": "proved",
   "theorems": [
    "TG.C121_path_stays",
    "TG.C121_certificate_stays",
    "TG.C121_renewal"
   ],
   "note": "Renewal is proved for certificates on which nobody has revoked somebody after them and that are within max_chain_len (as C82)."
  },
  {
   "property": "C122",
   "status": "proved",
   "theorems": [
    "TG.C122_pairs",
    "TG.C122_rsa"
   ],
   "note": "What the two elliptic-curve libraries print for a public key is a parameter."
  },
  {
   "property": "C123",
   "status": "proved",
   "theorems": [
    "TG.C123_shipped_certificates",
    "TG.C123_shipped_too_late",
    "TG.C123_shipped_example"
   ],
   "note": "Proved, for dependencies that conform to the standards (Spec.Conforms): SHA-256 is FIPS 180-4, and the keys and signatures accepted by RFC 8032 are accepted. Both standards are written down in Spec/Sha2 and Spec/Ed25519, tested there on the published examples, and computed by the kernel for the fourteen signatures of the file. For the example the public key of its secret key is assumed to be computed as in RFC 8032."
  },
  {
   "property": "C124",
   "status": "partial",
   "theorems": [
    "TG.C124_nobody_speaks_for_others_partial",
    "TG.C124_coalition",
    "TG.C124_fails"
   ],
   "note": "Proved if the honest keys are not Secp256k1 keys; that signatures are not forged is a hypothesis (Unforged) about the scheme of the key and not about the code, which is proved to check what the scheme checks and to bind issuer-independent fields unambiguously. False for Secp256k1 keys (C124_fails, finding F1): anybody can pass on the weight of a Secp256k1 root."
  },
  {
   "property": "C125",
   "status": "proved",
   "theorems": [
    "TG.C125_library",
    "TG.C125_stays"
   ],
   "note": "Fewer than 2^32-16 trusts and revocations handed over, so that no count or row number overflows. Expiry dates below 2^63, as beyond that the store reads them as negative; the service on wasm (32 bit)."
  },
  {
   "property": "C126",
   "status": "proved",
   "theorems": [
    "TG.C126_shut_out"
   ],
   "note": "Fewer than 2^32-16 trusts and revocations handed over, so that no count or row number overflows. That the key can still stand directly before the last key of a certificate is finding F2."
  },
  {
   "property": "C127",
   "status": "proved",
   "theorems": [
    "TG.C127_own_weight",
    "TG.C127_strangers"
   ],
   "note": "Fewer than 2^32-16 trusts and revocations handed over, so that no count or row number overflows. Times below 2^63."
  },
  {
   "property": "C128",
   "status": "partial",
   "theorems": [
    "TG.C128_damaged_partial",
    "TG.C128_left",
    "TG.C128_after_run_partial",
    "TG.C128_blocked_fails",
    "TG.C128_roots_fails",
    "TG.C128_empty_fails",
    "TG.DamageDemo.C128_altered_fails"
   ],
   "note": "Partial: damage is a row that cannot be read (a cell of the wrong type, a text that is no key, bytes that are no signature) or is gone. Rows with an empty text or empty bytes trap (C128_empty_fails), a root row without a readable key ends all answers about certificates and weights (C128_roots_fails), and rows changed into other readable ones are taken at their word, since signatures are not checked on reading (C128_altered_fails, F41; who checks the certificate notices, C130). C128_blocked_fails: the exception is real, a garbled row blocks revocation by its issuer for its key."
  },
  {
   "property": "C129",
   "status": "proved",
   "theorems": [
    "TG.C129_names_do_not_matter",
    "TG.C129_any_storage"
   ],
   "note": "Healthy database (no failing statements), fewer than 2^32-16 trusts and revocations handed over. Dates keep their side of 2^63, where SQLite takes them for negative (F4, F18)."
  },
  {
   "property": "C130",
   "status": "partial",
   "theorems": [
    "TG.C130_verified_partial",
    "TG.C130_reached",
    "TG.C130_genuine_accepted",
    "TG.C130_trust_partial",
    "TG.C130_revocation_partial",
    "TG.CheckDemo.C130_fails"
   ],
   "note": "Proved for honest keys other than Secp256k1 whose holders revoke no RSA keys; false for Secp256k1 keys (C130_fails, finding F1), and a revocation of an RSA key may have the bytes of a trust (F16). The direction from genuine to accepted holds for all keys."
  },
  {
   "property": "C131",
   "status": "proved",
   "theorems": [
    "TG.C131_time",
    "TG.C131_trust",
    "TG.C131_certificate",
    "TG.C131_expired",
    "TG.C131_expired_text"
   ],
   "note": "C131_time reads a printed time back with a small reader of decimal numbers with a unit. C131_trust and C131_certificate are equivalences. C131_expired is about the error returned by Trust::verify, C131_expired_text says that the texts differ. The plain debug format {:?} is modelled, not the indented one {:#?}; the format of std's Duration is modelled from its documentation and source."
  },
  {
   "property": "C132",
   "status": "proved",
   "theorems": [
    "TG.C132_json",
    "TG.C132_read",
    "TG.C132_round_trip",
    "TG.C132_admin_file",
    "TG.C132_admin_file_order",
    "TG.C132_on_start",
    "TG.C132_distro"
   ],
   "note": "The reader is proved to be the grammar of RFC 8259 (C132_json, both directions) and the records' fields exactly (C132_read). Round trips for the crate and the tool (C132_round_trip, C132_admin_file, C132_admin_file_order). The shipped files: C132_on_start, C132_distro. serde_json and JSON.stringify are modelled from their documentation. Numbers of JavaScript are taken to be exact, which they are below 2^53. The program that reads on_start.json on a node is not in the repository; it is taken to read records as the crate does."
  },
  {
   "property": "C133",
   "status": "proved",
   "theorems": [
    "TG.C133_indistinguishable"
   ],
   "note": "`C133_indistinguishable`: for two reachable databases with `Spec.SameContent` (the same stored relations, the same factor for every root), the answers to any later calls are pairwise `Spec.SameAnswer` and the contents are the same afterwards. Proved through the abstract machine of C99, whose state is a function of the content."
  },
  {
   "property": "C134",
   "status": "proved",
   "theorems": [
    "TG.C134_order",
    "TG.C134_roots"
   ],
   "note": "Proved with the provisos of the statement (`C134_order`, `C134_roots`); beside the theorems the kernel shows that without each of them (an answer 0, two messages of the same second, an expired trust) the order does matter. `Spec.Absorbs` says what a set of messages makes of the content; it determines the result."
  },
  {
   "property": "C135",
   "status": "proved",
   "theorems": [
    "TG.C135_certificates",
    "TG.C135_questions",
    "TG.C135_updates"
   ],
   "note": "C135_questions, C135_updates, C135_certificates; what the certificates cost is C103_statements. Weights: fewer than 2^32 - 16 relations are stored."
  },
  {
   "property": "C136",
   "status": "proved",
   "theorems": [
    "TG.C136_agree"
   ],
   "note": "C136_agree. In full under the conditions named in the statement."
  },
  {
   "property": "C137",
   "status": "proved",
   "theorems": [
    "TG.C137_weight_root_by_root",
    "TG.C137_certs_root_by_root",
    "TG.C137_weights_of_certs",
    "TG.C137_service"
   ],
   "note": "Proved without SQL failures (with failures a query may report one instead of an answer). C137_service: two answers of the service, on the target it runs on (wasm32), at a time below 2^63; SQL failures may occur, but the two calls must have succeeded."
  },
  {
   "property": "C138",
   "status": "proved",
   "theorems": [
    "TG.C138_one_row_per_pair",
    "TG.C138_square",
    "TG.C138_one_call",
    "TG.C138_roots"
   ],
   "note": ""
  },
  {
   "property": "C139",
   "status": "proved",
   "theorems": [
    "TG.C139_distance",
    "TG.C139_at_most",
    "TG.C139_neighbours",
    "TG.C139_service_at_most",
    "TG.C139_service_at_least"
   ],
   "note": "C139_distance, C139_neighbours, C139_at_most; through the service C139_service_at_most, C139_service_at_least. With revocations the exact weight is given by C10 with the certificates of C02; the local rule then fails (C96_half_fails)."
  },
  {
   "property": "C140",
   "status": "proved",
   "theorems": [
    "TG.C140_revoke",
    "TG.C140_add_trust",
    "TG.C140_time",
    "TG.C140_service_revoke",
    "TG.C140_service_trust"
   ],
   "note": "C140_revoke, C140_add_trust, C140_time; through the service C140_service_revoke, C140_service_trust. The exception for the last issuer is finding F2."
  },
  {
   "property": "C141",
   "status": "proved",
   "theorems": [
    "TG.C141_self_talk",
    "TG.C141_redundant"
   ],
   "note": "C141_self_talk, C141_redundant. Roots are excluded rightly: the self-signed trust of a root is the beginning of its certificates."
  },
  {
   "property": "C142",
   "status": "proved",
   "theorems": [
    "TG.C142_upstream"
   ],
   "note": "C142_upstream: for a set of keys S trusted by members only (Spec.Closed) and later calls that hand over only relations about keys outside S and make only keys outside S roots (Spec.Downstream): the same certificates (up to order), certificates from an issuer, revocations, weights and weights from an issuer for every member. Times of the later calls are at most the present moment; weights for fewer than 2^32-16 rows."
  },
  {
   "property": "C143",
   "status": "proved",
   "theorems": [
    "TG.C143_upstream",
    "TG.C143_self_talk"
   ],
   "note": "C143_upstream: part (a); C143_self_talk: part (b). Both are about records of a run of the service (ServiceRun): what was handed over is read off the calls (Made, Op.Submits), roots off the owner's set_root calls (OwnerSet). Runs that hand over fewer than 2^32-16 relations."
  },
  {
   "property": "C144",
   "status": "proved",
   "theorems": [
    "TG.C144_until_expiry",
    "TG.C144_service"
   ],
   "note": "C144_until_expiry: the library; C144_service: the service, from the records it returned. Expiry dates are compared as the code does (as signed 64-bit numbers); the service part is stated for times below 2^63, where this is the plain order. The times of the calls in between are at most T. Weights for fewer than 2^32-16 rows or relations handed over."
  },
  {
   "property": "C145",
   "status": "proved",
   "theorems": [
    "TG.C145_texts",
    "TG.C145_layout",
    "TG.C145_number_of_lines",
    "TG.C145_lists"
   ],
   "note": "C145_texts: the accepted texts and what is read from them; C145_layout: line ends and the first two lines do not matter, for any text; C145_lists: lists of texts; C145_number_of_lines: texts refused for their number of lines (with fewer than two lines from_str panics, finding F13)."
  },
  {
   "property": "C146",
   "status": "proved",
   "theorems": [
    "TG.C146_rsa_records",
    "TG.C146_keys_and_signatures",
    "TG.C146_trusts",
    "TG.C146_certificates",
    "TG.C146_certificates_written",
    "TG.C146_signed",
    "TG.C146_records",
    "TG.C146_key_pairs",
    "TG.C146_json"
   ],
   "note": "C146_keys_and_signatures, C146_trusts, C146_certificates (reading: after the trusts anything may follow), C146_certificates_written, C146_signed, C146_records, C146_key_pairs, C146_json (the values; how JSON texts are read is not part of it). Longer keys and signatures (RSA) do not fit: their trusts cannot be written (finding F12). C146_rsa_records: the peer ids of RSA keys of 256 to 16359 bytes (2048 bits are 270 bytes), which cannot be read back."
  },
  {
   "property": "C147",
   "status": "proved",
   "theorems": [
    "TG.C147_reason",
    "TG.C147_lower_weight",
    "TG.C147_more_trust",
    "TG.C147_service"
   ],
   "note": "C147_reason (exactly when a certificate of one node is missing at another), C147_lower_weight, C147_more_trust, C147_service. Spec.Obstacle lists the reasons."
  },
  {
   "property": "C148",
   "status": "proved",
   "theorems": [
    "TG.C148_exported"
   ],
   "note": "C148_exported. Proved for the target the service runs on (wasm32). A revocation dated in the same second as something already stored about the two keys is dropped although revoke reports success (finding F21); hence 'older'."
  },
  {
   "property": "C149",
   "status": "proved",
   "theorems": [
    "TG.C149_cut_off"
   ],
   "note": "C149_cut_off. Proved for the target the service runs on (wasm32) and for fewer than 2^32 - 16 relations handed to the service. A revocation dated in the same second as something already stored about the two keys is dropped although revoke reports success (finding F21); hence 'older'. The exception for the issuer of the last trust is finding F2."
  },
  {
   "property": "C150",
   "status": "proved",
   "theorems": [
    "TG.C150_certified"
   ],
   "note": "C150_certified. Proved for fewer than 2^32 - 16 relations handed to the service, and for expiry dates below 2^63 (later ones are collected as if expired). A trust dated in the same second as something already stored about the two keys is dropped although add_trust reports success (finding F21); hence 'older'."
  }
 ]
}