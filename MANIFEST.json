{
 "claims": [
  {
   "property": "C01",
   "status": "proved",
   "theorems": [
    "Fizz.Codec.C01_retry",
    "Fizz.Codec.C01_encode_handshake",
    "Fizz.Codec.C01_encode_fails",
    "Fizz.Codec.C01_roundtrip",
    "Fizz.Codec.C01_alert",
    "Fizz.Codec.C01_serverHello_null_echo"
   ],
   "note": ""
  },
  {
   "property": "C02",
   "status": "proved",
   "theorems": [
    "Fizz.Codec.C02_retry",
    "Fizz.Codec.C02_strict",
    "Fizz.Codec.C02_reencode",
    "Fizz.Codec.C02_injective",
    "Fizz.Codec.C02_trailing",
    "Fizz.Codec.C02_total"
   ],
   "note": ""
  },
  {
   "property": "C03",
   "status": "proved",
   "theorems": [
    "Fizz.Codec.C03_signatureAlgorithms",
    "Fizz.Codec.C03_supportedGroups",
    "Fizz.Codec.C03_clientKeyShare",
    "Fizz.Codec.C03_serverKeyShare",
    "Fizz.Codec.C03_helloRetryRequestKeyShare",
    "Fizz.Codec.C03_clientPresharedKey",
    "Fizz.Codec.C03_serverPresharedKey",
    "Fizz.Codec.C03_clientEarlyData",
    "Fizz.Codec.C03_serverEarlyData",
    "Fizz.Codec.C03_ticketEarlyData",
    "Fizz.Codec.C03_cookie",
    "Fizz.Codec.C03_supportedVersions",
    "Fizz.Codec.C03_serverSupportedVersions",
    "Fizz.Codec.C03_pskKeyExchangeModes",
    "Fizz.Codec.C03_protocolNameList",
    "Fizz.Codec.C03_serverNameList",
    "Fizz.Codec.C03_certificateAuthorities",
    "Fizz.Codec.C03_certificateCompressionAlgorithms",
    "Fizz.Codec.C03_echOuterExtensions",
    "Fizz.Codec.C03_leftover"
   ],
   "note": ""
  },
  {
   "property": "C04",
   "status": "proved",
   "theorems": [
    "Fizz.Record.C04_roundtrip",
    "Fizz.Record.C04_initial_client_hello",
    "Fizz.Record.C04_no_plaintext_appdata",
    "Fizz.Record.C04_ccs"
   ],
   "note": ""
  },
  {
   "property": "C05",
   "status": "proved",
   "theorems": [
    "Fizz.Record.C05_write",
    "Fizz.Record.C05_roundtrip",
    "Fizz.Record.C05_fails_only_at_limit"
   ],
   "note": ""
  },
  {
   "property": "C06",
   "status": "proved",
   "theorems": [
    "Fizz.Record.C06_consecutive",
    "Fizz.Record.C06_nonce_injective",
    "Fizz.Record.C06_nonces_distinct",
    "Fizz.Record.C06_single_key",
    "Fizz.Record.C06_write_limit",
    "Fizz.Record.C06_read_limit"
   ],
   "note": ""
  },
  {
   "property": "C07",
   "status": "proved",
   "theorems": [
    "Fizz.Record.C07_count",
    "Fizz.Record.C07_limits",
    "Fizz.Record.C07_wire"
   ],
   "note": ""
  },
  {
   "property": "C08",
   "status": "proved",
   "theorems": [
    "Fizz.Record.C08_segmentation",
    "Fizz.Record.C08_prefix"
   ],
   "note": ""
  },
  {
   "property": "C09",
   "status": "proved",
   "theorems": [
    "Fizz.Record.C09_hint",
    "Fizz.Record.C09_hint_event",
    "Fizz.Record.C09_progress",
    "Fizz.Record.C09_terminates"
   ],
   "note": ""
  },
  {
   "property": "C10",
   "status": "proved",
   "theorems": [
    "Fizz.Record.C10_reassembly",
    "Fizz.Record.C10_no_splice",
    "Fizz.Record.C10_splice_is_error",
    "Fizz.Record.C10_history",
    "Fizz.Record.C10_boundaries"
   ],
   "note": ""
  },
  {
   "property": "C11",
   "status": "proved",
   "theorems": [
    "Fizz.Record.C11_authenticated",
    "Fizz.Record.C11_reject_fatal",
    "Fizz.Record.C11_skip_drops",
    "Fizz.Record.C11_ccs"
   ],
   "note": ""
  },
  {
   "property": "C12",
   "status": "proved",
   "theorems": [
    "Fizz.Bloom.C12_exact",
    "Fizz.Bloom.C12_no_false_negative",
    "Fizz.Bloom.C12_forgets",
    "Fizz.Bloom.C12_check_is_test_then_set",
    "Fizz.Bloom.C12_timed"
   ],
   "note": ""
  },
  {
   "property": "C13",
   "status": "partial",
   "theorems": [
    "Fizz.Bloom.C13_ttl_partial",
    "Fizz.Bloom.C13_counterexample"
   ],
   "note": "The property as stated is false of the code: bucket width is ttl/11 s rotated 12 deep with integer truncation, C13_counterexample refutes it for every ttl>=1 (an element can be forgotten before the TTL ends). C13_ttl_partial proves the window that really is guaranteed."
  },
  {
   "property": "C14",
   "status": "proved",
   "theorems": [
    "Fizz.Negotiate.C14_tiers",
    "Fizz.Negotiate.C14_tiers_complete",
    "Fizz.Negotiate.C14_tiers_member",
    "Fizz.Negotiate.C14_flat"
   ],
   "note": ""
  },
  {
   "property": "C15",
   "status": "proved",
   "theorems": [
    "Fizz.CertManager.C15_selection",
    "Fizz.CertManager.C15_direct_covers",
    "Fizz.CertManager.C15_scheme",
    "Fizz.CertManager.C15_first_added",
    "Fizz.CertManager.C15_by_identity",
    "Fizz.CertManager.C15_leading_dot_is_wildcard"
   ],
   "note": ""
  },
  {
   "property": "C16",
   "status": "proved",
   "theorems": [
    "Fizz.Ticket.C16_setSecrets",
    "Fizz.Ticket.C16_no_secrets",
    "Fizz.Ticket.C16_format",
    "Fizz.Ticket.C16_decrypt_iff",
    "Fizz.Ticket.C16_rotation",
    "Fizz.Ticket.C16_no_context_aborts"
   ],
   "note": ""
  },
  {
   "property": "C17",
   "status": "proved",
   "theorems": [
    "Fizz.Ticket.C17_encodes",
    "Fizz.Ticket.C17_roundtrip",
    "Fizz.Ticket.C17_old_formats",
    "Fizz.Ticket.C17_truncated",
    "Fizz.Ticket.C17_time_overflow"
   ],
   "note": ""
  },
  {
   "property": "C18",
   "status": "proved",
   "theorems": [
    "Fizz.Ticket.C18_encode_iff",
    "Fizz.Ticket.C18_roundtrip",
    "Fizz.Ticket.C18_injective",
    "Fizz.Ticket.C18_truncated",
    "Fizz.Ticket.C18_state",
    "Fizz.Ticket.C18_end_to_end"
   ],
   "note": ""
  },
  {
   "property": "C19",
   "status": "proved",
   "theorems": [
    "Fizz.Client.C19_serialize_iff",
    "Fizz.Client.C19_roundtrip",
    "Fizz.Client.C19_faithful",
    "Fizz.Client.C19_time_monotone",
    "Fizz.Client.C19_clamp",
    "Fizz.Client.C19_total",
    "Fizz.Client.C19_truncated"
   ],
   "note": ""
  },
  {
   "property": "C20",
   "status": "proved",
   "theorems": [
    "Fizz.Client.C20_basic",
    "Fizz.Client.C20_lru_bounded",
    "Fizz.Client.C20_lru_fresh",
    "Fizz.Client.C20_lru_effect",
    "Fizz.Client.C20_lru_eviction",
    "Fizz.Client.C20_lru_zero_unlimited"
   ],
   "note": ""
  },
  {
   "property": "C21",
   "status": "proved",
   "theorems": [
    "Fizz.KS.C21_schedule",
    "Fizz.KS.C21_agree",
    "Fizz.KS.C21_updates",
    "Fizz.KS.C21_ub_exact",
    "Fizz.KS.C21_misuse",
    "Fizz.KS.C21_fail_unchanged",
    "Fizz.KS.C21_traffic_key"
   ],
   "note": ""
  },
  {
   "property": "C22",
   "status": "proved",
   "theorems": [
    "Fizz.Codec.C22_injective",
    "Fizz.Codec.C22_layout",
    "Fizz.Codec.C22_refuses"
   ],
   "note": ""
  },
  {
   "property": "C23",
   "status": "proved",
   "theorems": [
    "Fizz.Crypto.C23_expand",
    "Fizz.Crypto.C23_refuses",
    "Fizz.Crypto.C23_prefix",
    "Fizz.Crypto.C23_extract",
    "Fizz.Crypto.C23_expandLabel"
   ],
   "note": ""
  },
  {
   "property": "C24",
   "status": "proved",
   "theorems": [
    "Fizz.Conn.C24_fifo",
    "Fizz.Conn.C24_serial",
    "Fizz.Conn.C24_gate",
    "Fizz.Conn.C24_socket_first",
    "Fizz.Conn.C24_no_lost_wakeup",
    "Fizz.Conn.C24_exec"
   ],
   "note": ""
  },
  {
   "property": "C25",
   "status": "proved",
   "theorems": [
    "Fizz.Conn.C25_reports_all",
    "Fizz.Conn.C25_reports_all_top",
    "Fizz.Conn.C25_later_calls",
    "Fizz.Conn.C25_nothing_processed_after",
    "Fizz.Conn.C25_tokens"
   ],
   "note": ""
  },
  {
   "property": "C26",
   "status": "proved",
   "theorems": [
    "Fizz.Server.C26_deliver",
    "Fizz.Server.C26_success",
    "Fizz.Server.C26_once",
    "Fizz.Server.C26_conn"
   ],
   "note": ""
  },
  {
   "property": "C27",
   "status": "proved",
   "theorems": [
    "Fizz.Server.C27_accept",
    "Fizz.Server.C27_skip"
   ],
   "note": ""
  },
  {
   "property": "C28",
   "status": "proved",
   "theorems": [
    "Fizz.Server.C28_terminal",
    "Fizz.Server.C28_alert",
    "Fizz.Server.C28_report",
    "Fizz.Server.C28_keys"
   ],
   "note": ""
  },
  {
   "property": "C29",
   "status": "proved",
   "theorems": [
    "Fizz.Server.C29_required"
   ],
   "note": ""
  },
  {
   "property": "C30",
   "status": "proved",
   "theorems": [
    "Fizz.ClientSM.C30_success",
    "Fizz.ClientSM.C30_once",
    "Fizz.ClientSM.C30_conn"
   ],
   "note": ""
  },
  {
   "property": "C31",
   "status": "proved",
   "theorems": [
    "Fizz.ClientSM.C31_negotiated",
    "Fizz.ClientSM.C31_offered"
   ],
   "note": ""
  },
  {
   "property": "C32",
   "status": "proved",
   "theorems": [
    "Fizz.Batch.C32_complete",
    "Fizz.Batch.C32_index",
    "Fizz.Batch.C32_sound"
   ],
   "note": ""
  },
  {
   "property": "C33",
   "status": "proved",
   "theorems": [
    "Fizz.Batch.C33_codec",
    "Fizz.Batch.C33_tbs",
    "Fizz.Batch.C33_scheme",
    "Fizz.Batch.C33_add",
    "Fizz.Batch.C33_sign",
    "Fizz.Batch.C33_zero",
    "Fizz.Batch.C33_verifies",
    "Fizz.Batch.C33_sound"
   ],
   "note": ""
  },
  {
   "property": "C34",
   "status": "proved",
   "theorems": [
    "Fizz.Ech.C34_expand",
    "Fizz.Ech.C34_reject",
    "Fizz.Ech.C34_roundtrip",
    "Fizz.Ech.C34_generate"
   ],
   "note": ""
  },
  {
   "property": "C35",
   "status": "proved",
   "theorems": [
    "Fizz.Hpke.C35_schedule",
    "Fizz.Hpke.C35_kem",
    "Fizz.Hpke.C35_nonce",
    "Fizz.Hpke.C35_agree",
    "Fizz.Hpke.C35_psk",
    "Fizz.Hpke.C35_consecutive",
    "Fizz.Hpke.C35_nonces",
    "Fizz.Hpke.C35_limit",
    "Fizz.Hpke.C35_role",
    "Fizz.Hpke.C35_in_step",
    "Fizz.Hpke.C35_export"
   ],
   "note": ""
  },
  {
   "property": "C36",
   "status": "proved",
   "theorems": [
    "Fizz.Kex.C36_reject",
    "Fizz.Kex.C36_component_reject",
    "Fizz.Kex.C36_component",
    "Fizz.Kex.C36_split",
    "Fizz.Kex.C36_share",
    "Fizz.Kex.C36_agree",
    "Fizz.Kex.C36_x25519_kem"
   ],
   "note": ""
  },
  {
   "property": "C37",
   "status": "proved",
   "theorems": [
    "Fizz.Aead.C37_transform",
    "Fizz.Aead.C37_blocks",
    "Fizz.Aead.C37_blocksize",
    "Fizz.Aead.C37_encrypt",
    "Fizz.Aead.C37_decrypt",
    "Fizz.Aead.C37_roundtrip",
    "Fizz.Aead.C37_trim"
   ],
   "note": ""
  },
  {
   "property": "C38",
   "status": "proved",
   "theorems": [
    "Fizz.Ticket.C38_accept_iff",
    "Fizz.Ticket.C38_lifetime",
    "Fizz.Ticket.C38_issues_iff",
    "Fizz.Ticket.C38_ticket_validity_not_enforced",
    "Fizz.Ticket.C38_dual",
    "Fizz.Ticket.C38_resumes"
   ],
   "note": ""
  },
  {
   "property": "C39",
   "status": "proved",
   "theorems": [
    "Fizz.Cred.C39_accept",
    "Fizz.Cred.C39_plain",
    "Fizz.Cred.C39_alerts",
    "Fizz.Cred.C39_contexts",
    "Fizz.Cred.C39_covers",
    "Fizz.Cred.C39_lossless",
    "Fizz.Cred.C39_support_lossless",
    "Fizz.Cred.C39_issued",
    "Fizz.Cred.C39_loaded",
    "Fizz.Cred.C39_end_to_end",
    "Fizz.Cred.C39_choice",
    "Fizz.Cred.C39_only_if_offered"
   ],
   "note": ""
  },
  {
   "property": "C40",
   "status": "proved",
   "theorems": [
    "Fizz.ExportedAuth.C40_request",
    "Fizz.ExportedAuth.C40_request_refused",
    "Fizz.ExportedAuth.C40_valid",
    "Fizz.ExportedAuth.C40_refusal",
    "Fizz.ExportedAuth.C40_made",
    "Fizz.ExportedAuth.C40_roundtrip",
    "Fizz.ExportedAuth.C40_context",
    "Fizz.ExportedAuth.C40_context_of_valid",
    "Fizz.ExportedAuth.C40_covers",
    "Fizz.ExportedAuth.C40_bound",
    "Fizz.ExportedAuth.C40_no_ub",
    "Fizz.ExportedAuth.C40_get",
    "Fizz.ExportedAuth.C40_validate",
    "Fizz.ExportedAuth.C40_end_to_end",
    "Fizz.ExportedAuth.C40_one_use"
   ],
   "note": ""
  },
  {
   "property": "C41",
   "status": "proved",
   "theorems": [
    "Fizz.Codec.C41_binder_truncation",
    "Fizz.Codec.C41_binder_independent",
    "Fizz.Codec.C41_psk_must_be_last"
   ],
   "note": ""
  },
  {
   "property": "C42",
   "status": "proved",
   "theorems": [
    "Fizz.Record.C42_only_handshake_and_alerts",
    "Fizz.Record.C42_skip_ends",
    "Fizz.Record.C42_appdata_fatal",
    "Fizz.Record.C42_skips",
    "Fizz.Record.C42_nothing_hidden"
   ],
   "note": ""
  },
  {
   "property": "C43",
   "status": "proved",
   "theorems": [
    "Fizz.Crypto.C43_hmac",
    "Fizz.Crypto.C43_short_output"
   ],
   "note": ""
  },
  {
   "property": "C44",
   "status": "proved",
   "theorems": [
    "Fizz.Server.C44_sent"
   ],
   "note": ""
  },
  {
   "property": "C45",
   "status": "proved",
   "theorems": [
    "Fizz.Server.C45_layers",
    "Fizz.Server.C45_protect"
   ],
   "note": ""
  },
  {
   "property": "C47",
   "status": "proved",
   "theorems": [
    "Fizz.Server.C47_retry"
   ],
   "note": ""
  },
  {
   "property": "C48",
   "status": "proved",
   "theorems": [
    "Fizz.Server.C48_received",
    "Fizz.Server.C48_sent"
   ],
   "note": ""
  },
  {
   "property": "C49",
   "status": "proved",
   "theorems": [
    "Fizz.Server.C49_ticket"
   ],
   "note": ""
  },
  {
   "property": "C46",
   "status": "proved",
   "theorems": [
    "Fizz.Server.C46_info"
   ],
   "note": ""
  },
  {
   "property": "C50",
   "status": "proved",
   "theorems": [
    "Fizz.Server.C50_announced"
   ],
   "note": ""
  },
  {
   "property": "C51",
   "status": "proved",
   "theorems": [
    "Fizz.ClientSM.C51_deliver",
    "Fizz.ClientSM.C51_order"
   ],
   "note": ""
  },
  {
   "property": "C52",
   "status": "proved",
   "theorems": [
    "Fizz.ClientSM.C52_early",
    "Fizz.ClientSM.C52_failed"
   ],
   "note": ""
  },
  {
   "property": "C53",
   "status": "proved",
   "theorems": [
    "Fizz.ClientSM.C53_terminal",
    "Fizz.ClientSM.C53_alert",
    "Fizz.ClientSM.C53_report",
    "Fizz.ClientSM.C53_keys"
   ],
   "note": ""
  },
  {
   "property": "C54",
   "status": "proved",
   "theorems": [
    "Fizz.ClientSM.C54_received",
    "Fizz.ClientSM.C54_initiated"
   ],
   "note": ""
  },
  {
   "property": "C55",
   "status": "proved",
   "theorems": [
    "Fizz.ClientSM.C55_ticket"
   ],
   "note": ""
  },
  {
   "property": "C56",
   "status": "proved",
   "theorems": [
    "Fizz.ClientSM.C56_announced"
   ],
   "note": ""
  },
  {
   "property": "C57",
   "status": "proved",
   "theorems": [
    "Fizz.ClientSM.C57_layers",
    "Fizz.ClientSM.C57_protect"
   ],
   "note": ""
  },
  {
   "property": "C59",
   "status": "proved",
   "theorems": [
    "Fizz.ClientSM.C59_connect",
    "Fizz.ClientSM.C59_retry"
   ],
   "note": ""
  },
  {
   "property": "C60",
   "status": "proved",
   "theorems": [
    "Fizz.ClientSM.C60_outer"
   ],
   "note": ""
  },
  {
   "property": "C61",
   "status": "proved",
   "theorems": [
    "Fizz.ClientSM.C61_does"
   ],
   "note": ""
  },
  {
   "property": "C62",
   "status": "proved",
   "theorems": [
    "Fizz.ClientSM.C62_info"
   ],
   "note": ""
  },
  {
   "property": "C63",
   "status": "proved",
   "theorems": [
    "Fizz.ClientSM.C63_once",
    "Fizz.ClientSM.C63_established"
   ],
   "note": ""
  },
  {
   "property": "C58",
   "status": "proved",
   "theorems": [
    "Fizz.Agree.C58_parameters",
    "Fizz.Agree.C58_client",
    "Fizz.Agree.C58_server"
   ],
   "note": ""
  },
  {
   "property": "C64",
   "status": "proved",
   "theorems": [
    "Fizz.Ech.C64_extensions",
    "Fizz.Ech.C64_confirmation",
    "Fizz.Ech.C64_configs"
   ],
   "note": ""
  },
  {
   "property": "C65",
   "status": "proved",
   "theorems": [
    "Fizz.Ech.C65_first",
    "Fizz.Ech.C65_retry",
    "Fizz.Ech.C65_sender",
    "Fizz.Ech.C65_receiver"
   ],
   "note": ""
  },
  {
   "property": "C66",
   "status": "proved",
   "theorems": [
    "Fizz.Ech.C66_sealed",
    "Fizz.Ech.C66_tamper"
   ],
   "note": ""
  },
  {
   "property": "C67",
   "status": "proved",
   "theorems": [
    "Fizz.Ech.C67_block",
    "Fizz.Ech.C67_hides"
   ],
   "note": ""
  },
  {
   "property": "C68",
   "status": "proved",
   "theorems": [
    "Fizz.Ech.C68_first"
   ],
   "note": ""
  },
  {
   "property": "C69",
   "status": "proved",
   "theorems": [
    "Fizz.Ech.C69_check",
    "Fizz.Ech.C69_answers",
    "Fizz.Ech.C69_agree",
    "Fizz.Ech.C69_check_retry",
    "Fizz.Ech.C69_agree_retry",
    "Fizz.Ech.C69_transparent",
    "Fizz.Ech.C69_connection"
   ],
   "note": ""
  },
  {
   "property": "C70",
   "status": "proved",
   "theorems": [
    "Fizz.Ech.C70_accept",
    "Fizz.Ech.C70_reject",
    "Fizz.Ech.C70_retry",
    "Fizz.Ech.C70_retry_fails",
    "Fizz.Ech.C70_retry_configs"
   ],
   "note": ""
  },
  {
   "property": "C71",
   "status": "proved",
   "theorems": [
    "Fizz.Exporter.C71_rfc",
    "Fizz.Exporter.C71_refused",
    "Fizz.Exporter.C71_connection",
    "Fizz.Exporter.C71_early",
    "Fizz.Exporter.C71_separate"
   ],
   "note": ""
  },
  {
   "property": "C72",
   "status": "proved",
   "theorems": [
    "Fizz.Async.C72_follows",
    "Fizz.Async.C72_stream",
    "Fizz.Async.C72_drained",
    "Fizz.Async.C72_error",
    "Fizz.Async.C72_backpressure"
   ],
   "note": ""
  },
  {
   "property": "C73",
   "status": "proved",
   "theorems": [
    "Fizz.Async.C73_follows",
    "Fizz.Async.C73_safe",
    "Fizz.Async.C73_fifo",
    "Fizz.Async.C73_success",
    "Fizz.Async.C73_failure",
    "Fizz.Async.C73_buffered"
   ],
   "note": ""
  },
  {
   "property": "C74",
   "status": "proved",
   "theorems": [
    "Fizz.Sock.C74_order",
    "Fizz.Sock.C74_server",
    "Fizz.Sock.C74_wait",
    "Fizz.Sock.C74_limit",
    "Fizz.Sock.C74_reject",
    "Fizz.Sock.C74_match"
   ],
   "note": ""
  },
  {
   "property": "C75",
   "status": "proved",
   "theorems": [
    "Fizz.Sock.C75_handshake_once",
    "Fizz.Sock.C75_handshake_called",
    "Fizz.Sock.C75_write_once",
    "Fizz.Sock.C75_write_reported",
    "Fizz.Sock.C75_write_refused"
   ],
   "note": ""
  },
  {
   "property": "C76",
   "status": "proved",
   "theorems": [
    "Fizz.Sock.C76_bound",
    "Fizz.Sock.C76_bound_inside",
    "Fizz.Sock.C76_paced",
    "Fizz.Sock.C76_off"
   ],
   "note": ""
  },
  {
   "property": "C77",
   "status": "proved",
   "theorems": [
    "Fizz.Sock.C77_safe",
    "Fizz.Sock.C77_isReplaySafe",
    "Fizz.Sock.C77_not_forgotten"
   ],
   "note": ""
  },
  {
   "property": "C78",
   "status": "proved",
   "theorems": [
    "Fizz.Channel.C78_early_complete",
    "Fizz.Channel.C78_connected",
    "Fizz.Channel.C78_keys",
    "Fizz.Channel.C78_to_server",
    "Fizz.Channel.C78_to_client",
    "Fizz.Channel.C78_complete_server",
    "Fizz.Channel.C78_complete_client",
    "Fizz.Channel.C78_early",
    "Fizz.Channel.C78_key"
   ],
   "note": ""
  },
  {
   "property": "C79",
   "status": "proved",
   "theorems": [
    "Fizz.Aead.Aegis.C79_key",
    "Fizz.Aead.Aegis.C79_encrypt",
    "Fizz.Aead.Aegis.C79_decrypt",
    "Fizz.Aead.Aegis.C79_roundtrip"
   ],
   "note": ""
  },
  {
   "property": "C80",
   "status": "proved",
   "theorems": [
    "Fizz.Compress.C80_compresses",
    "Fizz.Compress.C80_available",
    "Fizz.Compress.C80_zlib",
    "Fizz.Compress.C80_brotli",
    "Fizz.Compress.C80_zstd",
    "Fizz.Compress.C80_memory",
    "Fizz.Compress.C80_lossless",
    "Fizz.Compress.C80_manager",
    "Fizz.Compress.C80_handshake",
    "Fizz.Compress.C80_refuse",
    "Fizz.Compress.C80_no_fallback"
   ],
   "note": ""
  },
  {
   "property": "C81",
   "status": "proved",
   "theorems": [
    "Fizz.TokenBinding.C81_versions",
    "Fizz.TokenBinding.C81_server",
    "Fizz.TokenBinding.C81_client",
    "Fizz.TokenBinding.C81_agree",
    "Fizz.TokenBinding.C81_answers",
    "Fizz.TokenBinding.C81_unasked",
    "Fizz.TokenBinding.C81_offer"
   ],
   "note": ""
  },
  {
   "property": "C82",
   "status": "proved",
   "theorems": [
    "Fizz.TokenBinding.C82_validate",
    "Fizz.TokenBinding.C82_made",
    "Fizz.TokenBinding.C82_bound",
    "Fizz.TokenBinding.C82_malleable",
    "Fizz.TokenBinding.C82_fragments",
    "Fizz.TokenBinding.C82_codec"
   ],
   "note": ""
  },
  {
   "property": "C83",
   "status": "proved",
   "theorems": [
    "Fizz.Psp.C83_codec",
    "Fizz.Psp.C83_safe",
    "Fizz.Psp.C83_once",
    "Fizz.Psp.C83_success",
    "Fizz.Psp.C83_installed",
    "Fizz.Psp.C83_closed",
    "Fizz.Psp.C83_quiet",
    "Fizz.Psp.C83_agree",
    "Fizz.Psp.C83_restart",
    "Fizz.Psp.C83_completes",
    "Fizz.Psp.C83_written",
    "Fizz.Psp.C83_signals"
   ],
   "note": ""
  },
  {
   "property": "C84",
   "status": "proved",
   "theorems": [
    "Fizz.Ktls.C84_sockopt",
    "Fizz.Ktls.C84_nonce",
    "Fizz.Ktls.C84_send",
    "Fizz.Ktls.C84_receive",
    "Fizz.Ktls.C84_no_reuse",
    "Fizz.Ktls.C84_enable",
    "Fizz.Ktls.C84_half_enabled",
    "Fizz.Ktls.C84_convert"
   ],
   "note": ""
  },
  {
   "property": "C85",
   "status": "proved",
   "theorems": [
    "Fizz.Ktls.C85_app",
    "Fizz.Ktls.C85_eof",
    "Fizz.Ktls.C85_tickets",
    "Fizz.Ktls.C85_dropped",
    "Fizz.Ktls.C85_unsupported",
    "Fizz.Ktls.C85_no_splice",
    "Fizz.Ktls.C85_complete",
    "Fizz.Ktls.C85_same_psk",
    "Fizz.Ktls.C85_throws"
   ],
   "note": ""
  },
  {
   "property": "C86",
   "status": "proved",
   "theorems": [
    "Fizz.Ktls.Rx.C86_fifo",
    "Fizz.Ktls.Rx.C86_failure",
    "Fizz.Ktls.Rx.C86_empty_direct",
    "Fizz.Ktls.Rx.C86_empty_stalls"
   ],
   "note": ""
  },
  {
   "property": "C87",
   "status": "proved",
   "theorems": [
    "Fizz.Kex.C87_agree",
    "Fizz.Kex.C87_sizes",
    "Fizz.Kex.C87_succeeds",
    "Fizz.Kex.C87_groups",
    "Fizz.Kex.C87_ec_accept",
    "Fizz.Kex.C87_ec_reject",
    "Fizz.Kex.C87_ec_no_key",
    "Fizz.Kex.C87_forms"
   ],
   "note": ""
  },
  {
   "property": "C88",
   "status": "proved",
   "theorems": [
    "Fizz.ClientCert.C88_store",
    "Fizz.ClientCert.C88_hasCerts",
    "Fizz.ClientCert.C88_choice",
    "Fizz.ClientCert.C88_none",
    "Fizz.ClientCert.C88_sound",
    "Fizz.ClientCert.C88_separate",
    "Fizz.ClientCert.C88_delegated"
   ],
   "note": ""
  },
  {
   "property": "C89",
   "status": "proved",
   "theorems": [
    "Fizz.Ech.Grease.C89_allowed",
    "Fizz.Ech.Grease.C89_total",
    "Fizz.Ech.Grease.C89_empty",
    "Fizz.Ech.Grease.C89_no_ub",
    "Fizz.Ech.Grease.C89_encode",
    "Fizz.Ech.Grease.C89_cover",
    "Fizz.Ech.Grease.C89_psk",
    "Fizz.Ech.Grease.C89_psk_hrr",
    "Fizz.Ech.Grease.C89_psk_hides",
    "Fizz.Ech.Grease.C89_psk_present"
   ],
   "note": ""
  },
  {
   "property": "C90",
   "status": "proved",
   "theorems": [
    "Fizz.Text.C90_hexlify",
    "Fizz.Text.C90_unhexlify",
    "Fizz.Text.C90_roundtrip",
    "Fizz.Text.C90_log",
    "Fizz.Text.C90_names",
    "Fizz.Text.C90_labels",
    "Fizz.Text.C90_probe",
    "Fizz.Text.C90_keypair",
    "Fizz.Text.C90_bad_key",
    "Fizz.Text.C90_null_kex"
   ],
   "note": ""
  },
  {
   "property": "C91",
   "status": "proved",
   "theorems": [
    "Fizz.Cred.Pem.C91_generate",
    "Fizz.Cred.Pem.C91_no_key",
    "Fizz.Cred.Pem.C91_roundtrip",
    "Fizz.Cred.Pem.C91_no_labels",
    "Fizz.Cred.Pem.C91_mode",
    "Fizz.Cred.Pem.C91_prefix",
    "Fizz.Cred.Pem.C91_reversed"
   ],
   "note": ""
  },
  {
   "property": "C92",
   "status": "proved",
   "theorems": [
    "Fizz.Text.C92_what",
    "Fizz.Text.C92_two",
    "Fizz.Text.C92_not_highest"
   ],
   "note": ""
  },
  {
   "property": "C93",
   "status": "proved",
   "theorems": [
    "Fizz.Verifier.C93_verify",
    "Fizz.Verifier.C93_default",
    "Fizz.Verifier.C93_empty",
    "Fizz.Verifier.C93_alert",
    "Fizz.Verifier.C93_authorities",
    "Fizz.Verifier.C93_setStore",
    "Fizz.Verifier.C93_setStore_fails",
    "Fizz.Verifier.C93_recording",
    "Fizz.Verifier.C93_client",
    "Fizz.Verifier.C93_server"
   ],
   "note": ""
  },
  {
   "property": "C94",
   "status": "proved",
   "theorems": [
    "Fizz.Multi.C94_offer",
    "Fizz.Multi.C94_offer_fails",
    "Fizz.Multi.C94_notify",
    "Fizz.Multi.C94_notify_fails",
    "Fizz.Multi.C94_server",
    "Fizz.Multi.C94_padding",
    "Fizz.Multi.C94_client"
   ],
   "note": ""
  },
  {
   "property": "C95",
   "status": "proved",
   "theorems": [
    "Fizz.Async.Aligned.C95_aligned",
    "Fizz.Async.Aligned.C95_resync",
    "Fizz.Async.Aligned.C95_bounded",
    "Fizz.Async.Aligned.C95_space",
    "Fizz.Async.Aligned.C95_suspended"
   ],
   "note": ""
  },
  {
   "property": "C96",
   "status": "proved",
   "theorems": [
    "Fizz.Cred.Evp.C96_sign_calls",
    "Fizz.Cred.Evp.C96_verify_calls",
    "Fizz.Cred.Evp.C96_valid",
    "Fizz.Cred.Evp.C96_exact",
    "Fizz.Cred.Evp.C96_buffer",
    "Fizz.Cred.Evp.C96_certificate"
   ],
   "note": ""
  },
  {
   "property": "C97",
   "status": "proved",
   "theorems": [
    "Fizz.Async.C97_bounded",
    "Fizz.Async.C97_reading",
    "Fizz.Async.C97_zeroCopy_unbounded",
    "Fizz.Async.C97_installed_unbounded"
   ],
   "note": ""
  },
  {
   "property": "C98",
   "status": "proved",
   "theorems": [
    "Fizz.Cred.Load.C98_exact",
    "Fizz.Cred.Load.C98_loaded",
    "Fizz.Cred.Load.C98_works",
    "Fizz.Cred.Load.C98_compressed",
    "Fizz.Cred.Load.C98_pem",
    "Fizz.Cred.Load.C98_empty",
    "Fizz.Cred.Load.C98_serialized",
    "Fizz.Cred.Load.C98_password",
    "Fizz.Cred.Load.C98_password_cut",
    "Fizz.Cred.Load.C98_keyFile",
    "Fizz.Cred.Load.C98_chainFile"
   ],
   "note": ""
  },
  {
   "property": "C99",
   "status": "proved",
   "theorems": [
    "Fizz.Async.EndOfTls.C99_handover",
    "Fizz.Async.EndOfTls.C99_segmentation",
    "Fizz.Async.EndOfTls.C99_shortest",
    "Fizz.Async.EndOfTls.C99_server",
    "Fizz.Async.EndOfTls.C99_client",
    "Fizz.Async.EndOfTls.C99_callback"
   ],
   "note": ""
  },
  {
   "property": "C100",
   "status": "proved",
   "theorems": [
    "Fizz.Names.C100_printed_injective",
    "Fizz.Names.C100_suite",
    "Fizz.Names.C100_scheme",
    "Fizz.Names.C100_group",
    "Fizz.Names.C100_compression",
    "Fizz.Names.C100_algorithms",
    "Fizz.Names.C100_hpke",
    "Fizz.Names.C100_version",
    "Fizz.Names.C100_registered"
   ],
   "note": ""
  },
  {
   "property": "C101",
   "status": "proved",
   "theorems": [
    "Fizz.KeyLog.C101_callback",
    "Fizz.Server.C101_server",
    "Fizz.ClientSM.C101_client",
    "Fizz.Agree.C101_agree",
    "Fizz.Agree.C101_early"
   ],
   "note": ""
  },
  {
   "property": "C102",
   "status": "proved",
   "theorems": [
    "Fizz.Alerts.ClientProps.C102_client",
    "Fizz.Alerts.C102_server",
    "Fizz.Alerts.ClientProps.C102_client_report",
    "Fizz.Alerts.ClientProps.C102_client_sent",
    "Fizz.Alerts.C102_server_report",
    "Fizz.Alerts.C102_server_sent"
   ],
   "note": ""
  },
  {
   "property": "C103",
   "status": "proved",
   "theorems": [
    "Fizz.Access.C103_defined",
    "Fizz.Access.C103_early",
    "Fizz.Access.C103_kept",
    "Fizz.Access.C103_plain",
    "Fizz.Access.C103_connection"
   ],
   "note": ""
  },
  {
   "property": "C104",
   "status": "proved",
   "theorems": [
    "Fizz.Server.C104_count",
    "Fizz.Server.C104_single",
    "Fizz.Server.C104_when",
    "Fizz.Server.C104_exact"
   ],
   "note": ""
  },
  {
   "property": "C105",
   "status": "proved",
   "theorems": [
    "Fizz.Sock.C105_socket",
    "Fizz.Sock.C105_server",
    "Fizz.Sock.C105_starts",
    "Fizz.Sock.C105_once",
    "Fizz.Sock.C105_due",
    "Fizz.Sock.C105_pending",
    "Fizz.Sock.C105_tells"
   ],
   "note": ""
  },
  {
   "property": "C106",
   "status": "proved",
   "theorems": [
    "Fizz.Async.Secrets.C106_told",
    "Fizz.Async.Secrets.C106_only",
    "Fizz.Async.Secrets.C106_withdrawn"
   ],
   "note": ""
  }
 ]
}